import Verif.Proof.WireRead
/-! # MQTT's wire format, as specified in `Spec/Wire.lean`, is unambiguous

No reader is used here: bytes determine the packet because every field announces where it ends. -/

namespace Mqrstt
open Spec Mqrstt.Props

/-- what follows does not matter -/
def Det {α : Type} (says : α → Bytes → Prop) : Prop :=
  ∀ {a a' : α} {b b' r r' : Bytes}, says a b → says a' b' → b ++ r = b' ++ r' → a = a' ∧ b = b' ∧ r = r'

theorem u16_det : Det U16Says := fun h h' e => ValueBytes.det (k := .u16) h h' e
theorem str_det : Det StrSays := fun h h' e => ValueBytes.det (k := .str) h h' e
theorem bin_det : Det BinSays := fun h h' e => ValueBytes.det (k := .bin) h h' e

theorem len_det : Det LenBytes := by
  intro n n' b b' r r' h h' e
  have v : vbiValue b < 2 ^ 32 := Nat.lt_trans (isVbi_lt h.1) (by decide)
  have v' : vbiValue b' < 2 ^ 32 := Nat.lt_trans (isVbi_lt h'.1) (by decide)
  obtain ⟨g, rfl, rfl⟩ := ValueBytes.det (k := .var) (v := UInt32.ofNat (vbiValue b)) (v' := UInt32.ofNat (vbiValue b'))
    ⟨h.1, (ofNat_vbi h.1).symm⟩ ⟨h'.1, (ofNat_vbi h'.1).symm⟩ e
  exact ⟨by rw [← h.2.1, ← h'.2.1], rfl, rfl⟩

theorem section_det {s : Spec.Section} : Det (SectionSays s) := by
  intro P P' b b' r r' h h' e
  obtain ⟨len, body, items, rfl, h1, h2, -, -, h3, h4, -⟩ := h
  obtain ⟨len', body', items', rfl, h1', h2', -, -, h3', h4', -⟩ := h'
  rw [List.append_assoc, List.append_assoc] at e
  obtain ⟨hn, rfl, e₂⟩ := len_det h1 h1' e
  obtain ⟨rfl, rfl⟩ := List.append_inj e₂ hn
  cases items_unique h2 h2'
  refine ⟨Props.ext' (fun p => ?_) (h3.subIds.trans h3'.subIds.symm) (h3.users.trans h3'.users.symm), rfl, rfl⟩
  cases hr : repeatable s p with
  | true => rw [h4 p hr, h4' p hr]
  | false =>
    cases hv : P.val p with
    | some v => exact ((h3'.single p hr v).2 ((h3.single p hr v).1 hv)).symm
    | none =>
      cases hv' : P'.val p with
      | none => rfl
      | some v => rw [(h3.single p hr v).2 ((h3'.single p hr v).1 hv')] at hv; cases hv

theorem will_det {w w' : LastWill} {b b' r r' : Bytes} (h : WillSays w b) (h' : WillSays w' b') (e : b ++ r = b' ++ r')
    (hq : w.qos = w'.qos) (hr : w.retain = w'.retain) : w = w' ∧ b = b' ∧ r = r' := by
  obtain ⟨s, t, p, rfl, h1, h2, h3⟩ := h
  obtain ⟨s', t', p', rfl, h1', h2', h3'⟩ := h'
  simp only [List.append_assoc] at e
  obtain ⟨g1, rfl, e₂⟩ := section_det h1 h1' e
  obtain ⟨g2, rfl, e₃⟩ := str_det h2 h2' e₂
  obtain ⟨g3, rfl, rfl⟩ := bin_det h3 h3' e₃
  cases w; cases w'
  simp only at hq hr g1 g2 g3
  subst hq hr g1 g2 g3
  exact ⟨rfl, rfl, rfl⟩

theorem opt_det {α : Type} {says : α → Bytes → Prop} (hd : Det says) {a a' : Option α} {b b' r r' : Bytes}
    (h : OptSays says a b) (h' : OptSays says a' b') (hs : a.isSome = a'.isSome) (e : b ++ r = b' ++ r') :
    a = a' ∧ b = b' ∧ r = r' := by
  cases a <;> cases a' <;> simp at hs
  · cases h; cases h'; exact ⟨rfl, rfl, by simpa using e⟩
  · obtain ⟨rfl, rfl, rfl⟩ := hd h h' e; exact ⟨rfl, rfl, rfl⟩

theorem list_det {α : Type} {says : α → Bytes → Prop} (hd : Det says) (hn : ∀ {a b}, says a b → b ≠ []) {as as' : List α}
    {bs : Bytes} (h : ListSays says as bs) (h' : ListSays says as' bs) : as = as' := by
  induction h generalizing as' with
  | nil =>
    generalize e : ([] : Bytes) = x at h'
    cases h' with
    | nil => rfl
    | cons h1 h2 =>
      have := hn h1
      simp_all
  | @cons a as b bs h1 h2 ih =>
    generalize e : b ++ bs = x at h'
    cases h' with
    | nil => have := hn h1; simp_all
    | cons g1 g2 =>
      obtain ⟨rfl, -, rfl⟩ := hd h1 g1 e
      rw [ih g2]

theorem str_ne {a : Str} {b : Bytes} (h : StrSays a b) : b ≠ [] := by
  obtain ⟨x, y, rfl, -⟩ := h; simp

theorem subOptionsByte_inj {o o' : SubOptions} (h : subOptionsByte o = subOptionsByte o') : o = o' := by
  obtain ⟨a, b, c, d⟩ := o
  obtain ⟨a', b', c', d'⟩ := o'
  cases a <;> cases b <;> cases c <;> cases d <;> cases a' <;> cases b' <;> cases c' <;> cases d' <;>
    simp [subOptionsByte] at h ⊢

theorem filter_det : Det FilterSays := by
  intro t t' b b' r r' h h' e
  obtain ⟨s, o, rfl, h1, h2⟩ := h
  obtain ⟨s', o', rfl, h1', h2'⟩ := h'
  simp only [List.append_assoc] at e
  obtain ⟨g, rfl, e₂⟩ := str_det h1 h1' e
  simp only [List.cons_append, List.nil_append, List.cons.injEq] at e₂
  obtain ⟨rfl, rfl⟩ := e₂
  refine ⟨?_, rfl, rfl⟩
  exact Prod.ext g (subOptionsByte_inj (by rw [← h2, ← h2']))

theorem reasonNumber_inj {t : PacketType} {r r' : Reason} (h : IsCode t r) (h' : IsCode t r')
    (e : reasonNumber r = reasonNumber r') : r = r' := by
  by_cases h0 : reasonNumber r = 0
  · rw [h.2 h0, h'.2 (e ▸ h0)]
  · obtain ⟨-, h⟩ := h
    clear h h'
    cases r <;> (first | (exact absurd rfl h0) | (cases r' <;> first | rfl | (exact absurd e (by decide))))

theorem codes_inj {t : PacketType} : ∀ {rs rs' : List Reason}, (∀ r ∈ rs, IsCode t r) → (∀ r ∈ rs', IsCode t r) →
    rs.map reasonNumber = rs'.map reasonNumber → rs = rs'
  | [], [], _, _, _ => rfl
  | [], _ :: _, _, _, e => by simp at e
  | _ :: _, [], _, _, e => by simp at e
  | r :: rs, r' :: rs', h, h', e => by
    simp only [List.map_cons, List.cons.injEq] at e
    rw [reasonNumber_inj (h r (by simp)) (h' r' (by simp)) e.1,
      codes_inj (fun x hx => h x (by simp [hx])) (fun x hx => h' x (by simp [hx])) e.2]

theorem reason_det {t : PacketType} {s : Spec.Section} {d r r' : Reason} {P P' : Props} {bs : Bytes}
    (h : ReasonSays t s d r P bs) (h' : ReasonSays t s d r' P' bs) : r = r' ∧ P = P' := by
  rcases h with ⟨rfl, rfl, hP⟩ | ⟨hc, rfl, hP⟩ | ⟨hc, sec, rfl, hP⟩
  · rcases h' with ⟨-, rfl, hP'⟩ | ⟨-, h, -⟩ | ⟨-, sec, h, -⟩
    · exact ⟨rfl, (noProps_iff hP).trans (noProps_iff hP').symm⟩
    · cases h
    · cases h
  · rcases h' with ⟨h, -, -⟩ | ⟨hc', h, hP'⟩ | ⟨-, sec, h, hs⟩
    · cases h
    · simp only [List.cons.injEq, and_true] at h
      exact ⟨reasonNumber_inj hc hc' h, (noProps_iff hP).trans (noProps_iff hP').symm⟩
    · simp only [List.cons.injEq] at h
      have := sec_pos hs
      rw [← h.2] at this
      simp at this
  · rcases h' with ⟨h, -, -⟩ | ⟨-, h, -⟩ | ⟨hc', sec', h, hs⟩
    · cases h
    · simp only [List.cons.injEq] at h
      have := sec_pos hP
      rw [h.2] at this
      simp at this
    · simp only [List.cons.injEq] at h
      obtain ⟨h1, rfl⟩ := h
      exact ⟨reasonNumber_inj hc hc' h1, (section_det (r := []) (r' := []) hP hs rfl).1⟩

theorem ack_det {t : PacketType} {s : Spec.Section} {a a' : Ack} {bs : Bytes} (h : AckSays t s a bs) (h' : AckSays t s a' bs) :
    a = a' := by
  obtain ⟨i, tl, rfl, h1, h2⟩ := h
  obtain ⟨i', tl', e, h1', h2'⟩ := h'
  obtain ⟨g1, -, rfl⟩ := u16_det h1 h1' e
  obtain ⟨g2, g3⟩ := reason_det h2 h2'
  cases a; cases a'
  simp only at g1 g2 g3
  subst g1 g2 g3
  rfl

theorem codesAck_det {t : PacketType} {s : Spec.Section} {a a' : CodesAck} {bs : Bytes} (h : CodesSay t s a bs)
    (h' : CodesSay t s a' bs) : a = a' := by
  obtain ⟨i, sec, rfl, h1, h2, h3⟩ := h
  obtain ⟨i', sec', e, h1', h2', h3'⟩ := h'
  simp only [List.append_assoc] at e
  obtain ⟨g1, -, e⟩ := u16_det h1 h1' e
  obtain ⟨g2, -, e⟩ := section_det h2 h2' e
  have g3 := codes_inj h3 h3' e
  cases a; cases a'
  simp only at g1 g2 g3
  subst g1 g2 g3
  rfl

/-- the connect flags from what they depend on -/
def flagsOf (u p : Bool) (w : Option (Bool × QoS)) (s : Bool) : Nat :=
  bitAt 7 u + bitAt 6 p + (match w with | some w => bitAt 5 w.1 + 8 * qosNumber w.2 + 4 | none => 0) + bitAt 1 s

theorem flagsOf_inj {u p s u' p' s' : Bool} {w w' : Option (Bool × QoS)} (h : flagsOf u p w s = flagsOf u' p' w' s') :
    u = u' ∧ p = p' ∧ w = w' ∧ s = s' := by
  have ht : ∀ w : Option (Bool × QoS), w = none ∨ ∃ r q, w = some (r, q) := by
    rintro (_ | ⟨r, q⟩)
    · exact .inl rfl
    · exact .inr ⟨r, q, rfl⟩
  rcases ht w with rfl | ⟨r, q, rfl⟩ <;> rcases ht w' with rfl | ⟨r', q', rfl⟩
  · revert h; cases u <;> cases p <;> cases s <;> cases u' <;> cases p' <;> cases s' <;> decide
  · exfalso; revert h
    cases u <;> cases p <;> cases s <;> cases u' <;> cases p' <;> cases s' <;> cases r' <;> cases q' <;> decide
  · exfalso; revert h
    cases u <;> cases p <;> cases s <;> cases u' <;> cases p' <;> cases s' <;> cases r <;> cases q <;> decide
  · have e1 : ∀ (u p s r : Bool) (q : QoS), flagsOf u p (some (r, q)) s =
        (bitAt 7 u + bitAt 6 p + bitAt 5 r + bitAt 1 s) + (8 * qosNumber q + 4) := by
      intro u p s r q; simp only [flagsOf]; omega
    rw [e1, e1] at h
    have hq : q = q' ∧ r = r' ∧ u = u' ∧ p = p' ∧ s = s' := by
      cases q <;> cases q' <;> simp only [qosNumber] at h <;>
        (revert h; cases u <;> cases p <;> cases s <;> cases r <;> cases u' <;> cases p' <;> cases s' <;> cases r' <;> decide)
    obtain ⟨rfl, rfl, rfl, rfl, rfl⟩ := hq
    exact ⟨rfl, rfl, rfl, rfl⟩

theorem connectFlags_inj {c c' : Connect} (h : connectFlagsByte c = connectFlagsByte c') :
    c.username.isSome = c'.username.isSome ∧ c.password.isSome = c'.password.isSome ∧
    c.lastWill.map (fun w => (w.retain, w.qos)) = c'.lastWill.map (fun w => (w.retain, w.qos)) ∧
    c.cleanStart = c'.cleanStart := by
  have e : ∀ c : Connect, connectFlagsByte c =
      flagsOf c.username.isSome c.password.isSome (c.lastWill.map (fun w => (w.retain, w.qos))) c.cleanStart := by
    intro c
    cases hl : c.lastWill <;> simp [connectFlagsByte, flagsOf, hl]
  rw [e, e] at h
  exact flagsOf_inj h

theorem body_det {p q : Packet} {bs : Bytes} (ht : p.type = q.type) (hf : flagBits p = flagBits q) (hp : BodySays p bs)
    (hq : BodySays q bs) : p = q := by
  cases p <;> cases q <;> simp only [Packet.type, reduceCtorEq] at ht
  case connect.connect c c' =>
    obtain ⟨f, k, s, i, w, u, p, rfl, h1, h2, h3, h4, h5, h6, h7⟩ := hp
    obtain ⟨f', k', s', i', w', u', p', e, h1', h2', h3', h4', h5', h6', h7'⟩ := hq
    simp only [List.append_assoc, List.cons_append, List.nil_append, List.cons.injEq, true_and] at e
    obtain ⟨rfl, e⟩ := e
    obtain ⟨f1, f2, f3, f4⟩ := connectFlags_inj (h1.symm.trans h1')
    obtain ⟨g1, -, e⟩ := u16_det h2 h2' e
    obtain ⟨g2, -, e⟩ := section_det h3 h3' e
    obtain ⟨g3, -, e⟩ := str_det h4 h4' e
    have g4 : c.lastWill = c'.lastWill ∧ u ++ p = u' ++ p' := by
      revert h5 h5' f3
      cases c.lastWill <;> cases c'.lastWill <;> simp only [Option.map_none, Option.map_some, reduceCtorEq, false_imp_iff,
        imp_true_iff, OptSays, Option.some.injEq, Prod.mk.injEq]
      · rintro rfl rfl -; exact ⟨trivial, e⟩
      · intro a b ⟨x, y⟩
        obtain ⟨r1, -, r2⟩ := will_det a b e y x
        exact ⟨r1, r2⟩
    obtain ⟨g4, e⟩ := g4
    obtain ⟨g5, -, e⟩ := opt_det str_det h6 h6' f1 e
    obtain ⟨g6, -, -⟩ := opt_det (r := []) (r' := []) str_det h7 h7' f2 (by rw [e])
    cases c; cases c'
    simp only at f4 g1 g2 g3 g4 g5 g6
    subst f4 g1 g2 g3 g4 g5 g6
    rfl
  case connAck.connAck c c' =>
    obtain ⟨f, s, rfl, h1, h2, h3⟩ := hp
    obtain ⟨f', s', e, h1', h2', h3'⟩ := hq
    simp only [List.cons.injEq] at e
    obtain ⟨rfl, e1, rfl⟩ := e
    have g1 := reasonNumber_inj h2 h2' e1
    obtain ⟨g2, -⟩ := section_det (r := []) (r' := []) h3 h3' rfl
    have g3 : c.sessionPresent = c'.sessionPresent := by
      rw [h1] at h1'; revert h1'
      cases c.sessionPresent <;> cases c'.sessionPresent <;> decide
    cases c; cases c'
    simp only at g1 g2 g3
    subst g1 g2 g3
    rfl
  case publish.publish p p' =>
    obtain ⟨t, i, s, rfl, h1, h2, h3, h4⟩ := hp
    obtain ⟨t', i', s', e, h1', h2', h3', h4'⟩ := hq
    have g : p.dup = p'.dup ∧ p.qos = p'.qos ∧ p.retain = p'.retain := by
      simp only [flagBits] at hf
      revert hf
      cases p.dup <;> cases p'.dup <;> cases p.qos <;> cases p'.qos <;> cases p.retain <;> cases p'.retain <;> decide
    obtain ⟨f1, f2, f3⟩ := g
    simp only [List.append_assoc] at e
    obtain ⟨g1, -, e⟩ := str_det h1 h1' e
    obtain ⟨g2, -, e⟩ := opt_det u16_det h2 h2' (by rw [Bool.eq_iff_iff, h3, h3', f2]) e
    obtain ⟨g3, -, g4⟩ := section_det h4 h4' e
    cases p; cases p'
    simp only at f1 f2 f3 g1 g2 g3 g4
    subst f1 f2 f3 g1 g2 g3 g4
    rfl
  case subscribe.subscribe s s' =>
    obtain ⟨i, sec, ts, rfl, h1, h2, -, h3⟩ := hp
    obtain ⟨i', sec', ts', e, h1', h2', -, h3'⟩ := hq
    simp only [List.append_assoc] at e
    obtain ⟨g1, -, e⟩ := u16_det h1 h1' e
    obtain ⟨g2, -, rfl⟩ := section_det h2 h2' e
    have g3 := list_det filter_det (fun h => by obtain ⟨x, y, rfl, -⟩ := h; simp) h3 h3'
    cases s; cases s'
    simp only at g1 g2 g3
    subst g1 g2 g3
    rfl
  case unsubscribe.unsubscribe s s' =>
    obtain ⟨i, sec, ts, rfl, h1, h2, -, h3⟩ := hp
    obtain ⟨i', sec', ts', e, h1', h2', -, h3'⟩ := hq
    simp only [List.append_assoc] at e
    obtain ⟨g1, -, e⟩ := u16_det h1 h1' e
    obtain ⟨g2, -, rfl⟩ := section_det h2 h2' e
    have g3 := list_det str_det str_ne h3 h3'
    cases s; cases s'
    simp only at g1 g2 g3
    subst g1 g2 g3
    rfl
  case pubAck.pubAck => rw [ack_det hp hq]
  case pubRec.pubRec => rw [ack_det hp hq]
  case pubRel.pubRel => rw [ack_det hp hq]
  case pubComp.pubComp => rw [ack_det hp hq]
  case subAck.subAck => rw [codesAck_det hp hq]
  case unsubAck.unsubAck => rw [codesAck_det hp hq]
  case disconnect.disconnect d d' =>
    obtain ⟨g1, g2⟩ := reason_det hp hq
    cases d; cases d'
    simp only at g1 g2
    subst g1 g2
    rfl
  case auth.auth a a' =>
    have g : a.reason = a'.reason ∧ a.props = a'.props := by
      rcases hp with ⟨rfl, h1, h2⟩ | ⟨h1, sec, rfl, h2⟩
      · rcases hq with ⟨-, h1', h2'⟩ | ⟨-, sec, h, -⟩
        · exact ⟨h1.trans h1'.symm, (noProps_iff h2).trans (noProps_iff h2').symm⟩
        · cases h
      · rcases hq with ⟨h, -⟩ | ⟨h1', sec', h, h2'⟩
        · cases h
        · simp only [List.cons.injEq] at h
          obtain ⟨e, rfl⟩ := h
          exact ⟨reasonNumber_inj h1 h1' e, (section_det (r := []) (r' := []) h2 h2' rfl).1⟩
    obtain ⟨g1, g2⟩ := g
    cases a; cases a'
    simp only at g1 g2
    subst g1 g2
    rfl
  all_goals rfl

theorem packet_det : Det PacketSays := by
  intro p q b b' r r' h h' e
  obtain ⟨f, l, body, rfl, h1, h2, h3⟩ := h
  obtain ⟨f', l', body', rfl, h1', h2', h3'⟩ := h'
  simp only [List.cons_append, List.append_assoc, List.cons.injEq] at e
  obtain ⟨rfl, e⟩ := e
  obtain ⟨hn, rfl, e₂⟩ := len_det h2 h2' e
  obtain ⟨rfl, rfl⟩ := List.append_inj e₂ hn
  have hb : ∀ p : Packet, flagBits p < 16 := by
    intro p
    cases p <;> simp only [flagBits] <;> try decide
    rename_i p
    cases p.dup <;> cases p.qos <;> cases p.retain <;> decide
  have hp := hb p
  have hq := hb q
  have ht : typeNumber p.type = typeNumber q.type := by omega
  have ht : p.type = q.type := by
    revert ht; cases p.type <;> cases q.type <;> decide
  exact ⟨body_det ht (by omega) h3 h3', rfl, rfl⟩

end Mqrstt
