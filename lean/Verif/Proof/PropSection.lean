import Verif.Proof.Safe
import Verif.Proof.Property
import Verif.Spec.PropSection
/-!
# What the property readers accept
-/

namespace Mqrstt
open Spec

theorem propertyId_eq (p : PropertyType) : propertyId p = p.toU8 := by cases p <;> rfl

theorem propertyId_inj {p q : PropertyType} (h : propertyId p = propertyId q) : p = q := by
  rw [propertyId_eq, propertyId_eq] at h
  have := congrArg PropertyType.fromU8 h
  simpa using this

/-! ## values -/

theorem mkU16_toNat (x y : UInt8) : (mkU16 x y).toNat = 256 * x.toNat + y.toNat := by
  have := x.toNat_lt; have := y.toNat_lt
  simp only [mkU16, UInt16.toNat_ofNat']
  omega

theorem mkU32_toNat (x y z u : UInt8) :
    (mkU32 x y z u).toNat = 16777216 * x.toNat + 65536 * y.toNat + 256 * z.toNat + u.toNat := by
  have := x.toNat_lt; have := y.toNat_lt; have := z.toNat_lt; have := u.toNat_lt
  simp only [mkU32, UInt32.toNat_ofNat']
  omega

theorem fromUtf8_ok {d b rest : Bytes} {s : Str} (h : fromUtf8 d b = .ok (s, rest)) :
    s.bytes = d ∧ rest = b := by
  unfold fromUtf8 at h
  split at h
  · cases h; exact ⟨rfl, rfl⟩
  · cases h

theorem isVbi_lt {len : Bytes} (h : IsVbi len) : vbiValue len < 268435456 := by
  obtain ⟨init, last, rfl, h1, h2, h3⟩ := h
  unfold more at h3
  match init, h1 with
  | [], _ => simp only [List.nil_append, vbiValue]; omega
  | [a], _ => simp only [List.cons_append, List.nil_append, vbiValue]; omega
  | [a, b], _ => simp only [List.cons_append, List.nil_append, vbiValue]; omega
  | [a, b, c], _ => simp only [List.cons_append, List.nil_append, vbiValue]; omega
  | _ :: _ :: _ :: _ :: _, h => simp at h; omega

theorem ofNat_vbi {len : Bytes} (h : IsVbi len) : (UInt32.ofNat (vbiValue len)).toNat = vbiValue len := by
  have := isVbi_lt h
  rw [UInt32.toNat_ofNat']; omega

theorem readBin_ok {b rest d : Bytes} (h : readBin b = .ok (d, rest)) :
    ∃ bs, b = bs ++ rest ∧ ValueBytes .bin d bs := by
  obtain ⟨n, b1, h1, h2⟩ := Rd.bind_eq_ok.1 h
  cases h1
  simp only [Rd.ite_apply] at h2
  split at h2
  · cases h2
  · obtain ⟨n, b1, h1, h2⟩ := Rd.bind_eq_ok.1 h2
    obtain ⟨x, y, rfl, rfl⟩ := getU16_ok h1
    obtain ⟨n, b2, h3, h4⟩ := Rd.bind_eq_ok.1 h2
    cases h3
    simp only [Rd.ite_apply] at h4
    split at h4
    · cases h4
    · obtain ⟨rfl, hd⟩ := splitTo_ok h4
      exact ⟨x :: y :: d, rfl, x, y, rfl, by rw [hd, mkU16_toNat]⟩

theorem readStr_ok {b rest : Bytes} {s : Str} (h : readStr b = .ok (s, rest)) :
    ∃ bs, b = bs ++ rest ∧ ValueBytes .str s bs := by
  obtain ⟨d, b1, h1, h2⟩ := Rd.bind_eq_ok.1 h
  obtain ⟨rfl, rfl⟩ := fromUtf8_ok h2
  obtain ⟨bs, rfl, x, y, rfl, e⟩ := readBin_ok h1
  exact ⟨_, rfl, x, y, rfl, e⟩

theorem asyncReadBin_ok {b rest d : Bytes} {n : Nat} (h : asyncReadBin b = .ok ((d, n), rest)) :
    ∃ bs, b = bs ++ rest ∧ bs.length = n ∧ ValueBytes .bin d bs := by
  obtain ⟨n, b1, h1, h2⟩ := Rd.bind_eq_ok.1 h
  obtain ⟨x, y, rfl, rfl⟩ := aU16_ok h1
  obtain ⟨d', b2, h3, h4⟩ := Rd.bind_eq_ok.1 h2
  obtain ⟨rfl, hd⟩ := aExact_ok h3
  cases h4
  exact ⟨x :: y :: d, rfl, by simp [hd]; omega, x, y, rfl, by rw [hd, mkU16_toNat]⟩

theorem asyncReadStr_ok {b rest : Bytes} {s : Str} {n : Nat}
    (h : asyncReadStr b = .ok ((s, n), rest)) :
    ∃ bs, b = bs ++ rest ∧ bs.length = n ∧ ValueBytes .str s bs := by
  obtain ⟨⟨d, m⟩, b1, h1, h2⟩ := Rd.bind_eq_ok.1 h
  obtain ⟨s', b2, h3, h4⟩ := Rd.bind_eq_ok.1 h2
  cases h4
  obtain ⟨rfl, rfl⟩ := fromUtf8_ok h3
  obtain ⟨bs, rfl, e1, x, y, rfl, e⟩ := asyncReadBin_ok h1
  exact ⟨_, rfl, e1, x, y, rfl, e⟩

theorem QoS.fromU8_ok {x : UInt8} {q : QoS} (h : QoS.fromU8 x = .ok q) : x = q.toU8 := by
  unfold QoS.fromU8 at h
  repeat (split at h; · cases h; assumption)
  cases h

theorem Kind.readUnchecked_ok {k : Kind} {v : k.T} {b rest : Bytes}
    (hk : k = .u8 ∨ k = .u16 ∨ k = .u32) (h : k.readUnchecked b = .ok (v, rest)) :
    ∃ bs, b = bs ++ rest ∧ ValueBytes k v bs := by
  rcases hk with rfl | rfl | rfl
  · exact ⟨[v], getU8_ok h, rfl⟩
  · obtain ⟨x, y, rfl, rfl⟩ := getU16_ok h
    exact ⟨[x, y], rfl, x, y, rfl, mkU16_toNat x y⟩
  · obtain ⟨x, y, z, u, rfl, rfl⟩ := getU32_ok h
    exact ⟨[x, y, z, u], rfl, x, y, z, u, rfl, mkU32_toNat x y z u⟩

theorem afterLen {α} {r : Rd α} {c : Nat → Prop} [DecidablePred c] {f : Nat → DeErr} {b rest : Bytes}
    {a : α}
    (h : (do let n ← bufLen; if c n then Rd.de (f n) else r : Rd α) b = .ok (a, rest)) :
    r b = .ok (a, rest) := by
  obtain ⟨n, b1, h1, h2⟩ := Rd.bind_eq_ok.1 h
  cases h1
  simp only [Rd.ite_apply] at h2
  split at h2
  · cases h2
  · exact h2

theorem Kind.read_ok {k : Kind} {v : k.T} {b rest : Bytes} (h : k.read b = .ok (v, rest)) :
    ∃ bs, b = bs ++ rest ∧ ValueBytes k v bs := by
  cases k
  · exact Kind.readUnchecked_ok (.inl rfl) (afterLen (c := fun n => n = 0) (f := fun _ => _) h)
  · exact Kind.readUnchecked_ok (.inr (.inl rfl)) (afterLen (c := fun n => n < 2) (f := fun n => _) h)
  · exact Kind.readUnchecked_ok (.inr (.inr rfl)) (afterLen (c := fun n => n < 4) (f := fun n => _) h)
  · exact readStr_ok h
  · exact readBin_ok h
  · obtain ⟨⟨n, m⟩, b1, h1, h2⟩ := Rd.bind_eq_ok.1 h
    cases h2
    obtain ⟨len, rfl, hv, rfl, -⟩ := VarInt.read_ok h1
    exact ⟨len, rfl, hv, (ofNat_vbi hv).symm⟩
  · obtain ⟨x, b1, h1, h2⟩ := Rd.bind_eq_ok.1 (afterLen (c := fun n => n = 0) (f := fun _ => _) h)
    rw [getU8_ok h1]
    simp only [Rd.ite_apply] at h2
    split at h2
    · cases h2; exact ⟨[x], rfl, by rename_i hx; rw [hx]; rfl⟩
    · split at h2 <;> cases h2; exact ⟨[x], rfl, by rename_i hx; rw [hx]; rfl⟩
  · obtain ⟨x, b1, h1, h2⟩ := Rd.bind_eq_ok.1 (afterLen (c := fun n => n = 0) (f := fun _ => _) h)
    obtain ⟨e, rfl⟩ := lift_ok_inv h2
    rw [getU8_ok h1, QoS.fromU8_ok e]
    exact ⟨[v.toU8], rfl, by cases v <;> rfl⟩

theorem Kind.asyncRead_ok {k : Kind} {v : k.T} {n : Nat} {b rest : Bytes}
    (h : k.asyncRead b = .ok ((v, n), rest)) :
    ∃ bs, b = bs ++ rest ∧ bs.length = n ∧ ValueBytes k v bs := by
  cases k
  · obtain ⟨x, b1, h1, h2⟩ := Rd.bind_eq_ok.1 h
    rw [aU8_ok h1]; cases h2; exact ⟨[_], rfl, rfl, rfl⟩
  · obtain ⟨x, b1, h1, h2⟩ := Rd.bind_eq_ok.1 h
    obtain ⟨y, z, rfl, rfl⟩ := aU16_ok h1
    cases h2; exact ⟨[y, z], rfl, rfl, y, z, rfl, mkU16_toNat _ _⟩
  · obtain ⟨x, b1, h1, h2⟩ := Rd.bind_eq_ok.1 h
    obtain ⟨y, z, u, w, rfl, rfl⟩ := aU32_ok h1
    cases h2; exact ⟨[y, z, u, w], rfl, rfl, y, z, u, w, rfl, mkU32_toNat _ _ _ _⟩
  · exact asyncReadStr_ok h
  · exact asyncReadBin_ok h
  · obtain ⟨⟨n, m⟩, b1, h1, h2⟩ := Rd.bind_eq_ok.1 h
    cases h2
    obtain ⟨len, rfl, hv, rfl, e⟩ := VarInt.asyncRead_ok h1
    exact ⟨len, rfl, e, hv, (ofNat_vbi hv).symm⟩
  · obtain ⟨x, b1, h1, h2⟩ := Rd.bind_eq_ok.1 h
    rw [aU8_ok h1]
    simp only [Rd.ite_apply] at h2
    split at h2
    · cases h2; exact ⟨[x], rfl, rfl, by rename_i hx; rw [hx]; rfl⟩
    · split at h2 <;> cases h2; exact ⟨[x], rfl, rfl, by rename_i hx; rw [hx]; rfl⟩
  · obtain ⟨x, b1, h1, h2⟩ := Rd.bind_eq_ok.1 h
    obtain ⟨q, b2, h3, h4⟩ := Rd.bind_eq_ok.1 h2
    cases h4
    obtain ⟨e, rfl⟩ := lift_ok_inv h3
    rw [aU8_ok h1, QoS.fromU8_ok e]
    exact ⟨[v.toU8], rfl, rfl, by cases v <;> rfl⟩

/-- the bytes determine the value, whatever follows -/
theorem ValueBytes.det {k : Kind} {v v' : k.T} {b b' r r' : Bytes} (h : ValueBytes k v b)
    (h' : ValueBytes k v' b') (e : b ++ r = b' ++ r') : v = v' ∧ b = b' ∧ r = r' := by
  suffices hs : v = v' ∧ b = b' by
    obtain ⟨rfl, rfl⟩ := hs
    exact ⟨rfl, rfl, List.append_cancel_left e⟩
  cases k
  · simp only [ValueBytes] at h h'; subst h h'
    simp at e; exact ⟨e.1, by rw [e.1]⟩
  · obtain ⟨x, y, rfl, hv⟩ := h
    obtain ⟨x', y', rfl, hv'⟩ := h'
    simp only [List.cons_append, List.nil_append, List.cons.injEq] at e
    obtain ⟨rfl, rfl, -⟩ := e
    exact ⟨UInt16.toNat_inj.1 (by omega), rfl⟩
  · obtain ⟨x, y, z, u, rfl, hv⟩ := h
    obtain ⟨x', y', z', u', rfl, hv'⟩ := h'
    simp only [List.cons_append, List.nil_append, List.cons.injEq] at e
    obtain ⟨rfl, rfl, rfl, rfl, -⟩ := e
    exact ⟨UInt32.toNat_inj.1 (by omega), rfl⟩
  · obtain ⟨x, y, rfl, hv⟩ := h
    obtain ⟨x', y', rfl, hv'⟩ := h'
    simp only [List.cons_append, List.cons.injEq] at e
    obtain ⟨rfl, rfl, e⟩ := e
    have := (List.append_inj e (by omega)).1
    obtain ⟨b1, p1⟩ := v; obtain ⟨b2, p2⟩ := v'
    simp only at this; subst this
    exact ⟨rfl, rfl⟩
  · obtain ⟨x, y, rfl, hv⟩ := h
    obtain ⟨x', y', rfl, hv'⟩ := h'
    simp only [List.cons_append, List.cons.injEq] at e
    obtain ⟨rfl, rfl, e⟩ := e
    have := (List.append_inj e (by omega)).1
    exact ⟨this, by rw [this]⟩
  · obtain ⟨h1, h2⟩ := h
    obtain ⟨h3, h4⟩ := h'
    have e1 := (VarInt.isVbi_reads h1 r).1
    have e2 := (VarInt.isVbi_reads h3 r').1
    rw [e, e2] at e1
    simp only [Except.ok.injEq, Prod.mk.injEq] at e1
    obtain ⟨⟨g1, g2⟩, rfl⟩ := e1
    exact ⟨UInt32.toNat_inj.1 (by omega), List.append_cancel_right e⟩
  · simp only [ValueBytes] at h h'; subst h h'
    simp at e
    cases v <;> cases v' <;> simp at e ⊢
  · simp only [ValueBytes] at h h'; subst h h'
    simp at e
    cases v <;> cases v' <;> simp at e ⊢

theorem WireItem.Bytes.det {i j : WireItem} {b b' r r' : List UInt8} (h : i.Bytes b) (h' : j.Bytes b')
    (e : b ++ r = b' ++ r') : i = j ∧ r = r' := by
  cases i with
  | value p v =>
    obtain ⟨hp, vs, rfl, hv⟩ := h
    cases j with
    | value q w =>
      obtain ⟨hq, ws, rfl, hw⟩ := h'
      simp only [List.cons_append, List.cons.injEq] at e
      obtain ⟨e1, e2⟩ := e
      cases propertyId_inj e1
      obtain ⟨rfl, -, rfl⟩ := ValueBytes.det hv hw e2
      exact ⟨rfl, rfl⟩
    | user k w =>
      obtain ⟨ks, ws, rfl, -, -⟩ := h'
      simp only [List.cons_append, List.cons.injEq] at e
      exact absurd (propertyId_inj e.1) hp
  | user k v =>
    obtain ⟨ks, vs, rfl, hk, hv⟩ := h
    cases j with
    | value q w =>
      obtain ⟨hq, ws, rfl, hw⟩ := h'
      simp only [List.cons_append, List.cons.injEq] at e
      exact absurd (propertyId_inj e.1).symm hq
    | user k' w =>
      obtain ⟨ks', ws, rfl, hk', hw⟩ := h'
      simp only [List.cons_append, List.cons.injEq, List.append_assoc, true_and] at e
      obtain ⟨rfl, -, e⟩ := ValueBytes.det hk hk' e
      obtain ⟨rfl, -, e⟩ := ValueBytes.det hv hw e
      exact ⟨rfl, e⟩

theorem WireItem.Bytes.head {i : WireItem} {b : List UInt8} (h : i.Bytes b) :
    ∃ vs, b = propertyId i.type :: vs := by
  cases i with
  | value p v => obtain ⟨-, vs, rfl, -⟩ := h; exact ⟨_, rfl⟩
  | user k v => obtain ⟨ks, vs, rfl, -⟩ := h; exact ⟨_, rfl⟩

/-- a sequence of properties is determined by its bytes -/
theorem ItemsBytes.prefix {pre items : List WireItem} {good b : List UInt8} {x : UInt8} {more : List UInt8}
    (h : ItemsBytes pre good) (h' : ItemsBytes items b) (e : b = good ++ x :: more) :
    ∃ i tail, items = pre ++ i :: tail ∧ propertyId i.type = x := by
  induction h generalizing items b with
  | nil =>
    cases h' with
    | nil => cases e
    | @cons i is bs cs hi his =>
      obtain ⟨vs, rfl⟩ := WireItem.Bytes.head hi
      simp only [List.cons_append, List.nil_append, List.cons.injEq] at e
      exact ⟨i, is, rfl, e.1⟩
  | @cons i is bs cs hi his ih =>
    cases h' with
    | nil => simp at e
    | @cons j js bs' cs' hj hjs =>
      rw [List.append_assoc] at e
      obtain ⟨rfl, rfl⟩ := WireItem.Bytes.det hj hi e
      obtain ⟨k, tail, rfl, hk⟩ := ih hjs rfl
      exact ⟨k, tail, rfl, hk⟩

theorem items_unique {a b : List WireItem} {bs : List UInt8} (ha : ItemsBytes a bs)
    (hb : ItemsBytes b bs) : a = b := by
  induction ha generalizing b with
  | nil =>
    generalize hn : ([] : List UInt8) = e at hb
    cases hb with
    | nil => rfl
    | cons hi his => obtain ⟨vs, rfl⟩ := WireItem.Bytes.head hi; cases hn
  | @cons i is bs cs hi his ih =>
    generalize hn : bs ++ cs = e at hb
    cases hb with
    | nil => obtain ⟨vs, rfl⟩ := WireItem.Bytes.head hi; cases hn
    | @cons j js bs' cs' hj hjs =>
      obtain ⟨rfl, rfl⟩ := WireItem.Bytes.det hi hj hn
      rw [ih hjs]

/-! ## entries -/

/-- effect of a property on the decoded set -/
def putItem (s : Spec.Section) (P : Props) : WireItem → Props
  | .value .subscriptionIdentifier v =>
      if s = .publish then { P with subIds := P.subIds ++ [v] } else P.set .subscriptionIdentifier v
  | .value p v => P.set p v
  | .user k v => { P with users := P.users ++ [(k, v)] }

theorem putItem_value {s : Spec.Section} {P : Props} {p : PropertyType} (v : p.kind.T)
    (h : p = .subscriptionIdentifier → s ≠ .publish) : putItem s P (.value p v) = P.set p v := by
  cases p <;> first | rfl | (simp [putItem, h rfl])

/-- the table of a section lists what MQTT allows there, with the exception of SUBACK -/
def TableOk (s : Spec.Section) (es : List Entry) : Prop :=
  ∀ e ∈ es, match e with
    | .single p => p ≠ .userProperty ∧ (p = .subscriptionIdentifier → s ≠ .publish) ∧
        (¬ (s = .subAck ∧ p = .subscriptionIdentifier) → s ∈ carriers p)
    | .subIdList => s = .publish
    | .user => s ∈ carriers .userProperty

theorem TableOk.carriers {s : Spec.Section} {es : List Entry} (h : TableOk s es) {t : PropertyType}
    {e : Entry} (hs : Entry.select es t = some e) : 
    ¬ (s = .subAck ∧ t = .subscriptionIdentifier) → s ∈ Spec.carriers t := by
  obtain ⟨hm, rfl⟩ := Props.select_mem hs
  have := h e hm
  cases e with
  | single p => exact this.2.2
  | subIdList => simp only at this; subst this; intro _; decide
  | user => exact fun _ => this

/-- the property is not there yet -/
def Fresh (s : Spec.Section) (P : Props) (i : WireItem) : Prop :=
  repeatable s i.type = false → P.val i.type = none

theorem syncReadEntry_ok {sp : Props.SyncSpec} {s : Spec.Section} (ht : TableOk s sp.entries)
    {P P' : Props} {t : PropertyType} {e : Entry} {b rest : Bytes}
    (hs : Entry.select sp.entries t = some e)
    (h : Props.syncReadEntry sp P e b = .ok (P', rest)) :
    ∃ i bs, b = bs ++ rest ∧ i.type = t ∧ i.Bytes (propertyId t :: bs) ∧ P' = putItem s P i ∧
      (t ∉ sp.inverted → Fresh s P i) ∧ (t ∈ sp.inverted → repeatable s t = false → P.val t ≠ none) := by
  obtain ⟨hm, rfl⟩ := Props.select_mem hs
  have ho := ht e hm
  cases e with
  | single p =>
    simp only at ho
    obtain ⟨ho1, ho2, -⟩ := ho
    obtain ⟨hd, v, b1, h1, h2⟩ : ((p ∉ sp.inverted → P.val p = none) ∧
        (p ∈ sp.inverted → P.val p ≠ none)) ∧ ∃ v b1, (if sp.unchecked = true then
          p.kind.readUnchecked else p.kind.read) b = .ok (v, b1) ∧
        (pure (P.set p v) : Rd Props) b1 = .ok (P', rest) := by
      have key : ∀ d : Bool, (if d = true then Rd.de (.duplicateProperty (sp.dupLabel p)) else do
          let v ← if sp.unchecked = true then p.kind.readUnchecked else p.kind.read
          pure (P.set p v) : Rd Props) b = .ok (P', rest) → d = false ∧
          ∃ v b1, (if sp.unchecked = true then p.kind.readUnchecked else p.kind.read) b =
            .ok (v, b1) ∧ (pure (P.set p v) : Rd Props) b1 = .ok (P', rest) := by
        intro d hd
        cases d with
        | true => cases hd
        | false =>
          refine ⟨rfl, ?_⟩
          cases hu : sp.unchecked <;>
            simp only [hu, Bool.false_eq_true, if_false, if_true] at hd ⊢ <;> exact Rd.bind_eq_ok.1 hd
      by_cases hi : p ∈ sp.inverted
      · simp only [Props.syncReadEntry, if_pos hi] at h
        obtain ⟨k1, k2⟩ := key (P.val p).isNone (by
          cases hu : sp.unchecked <;> simpa only [hu, if_true, if_false, Bool.false_eq_true] using h)
        exact ⟨⟨fun h => absurd hi h, fun _ e => by simp [e] at k1⟩, k2⟩
      · simp only [Props.syncReadEntry, if_neg hi] at h
        obtain ⟨k1, k2⟩ := key (P.val p).isSome (by
          cases hu : sp.unchecked <;> simpa only [hu, if_true, if_false, Bool.false_eq_true] using h)
        exact ⟨⟨fun _ => by simpa using k1, fun h => absurd h hi⟩, k2⟩
    cases h2
    have hv : ∃ bs, b = bs ++ rest ∧ ValueBytes p.kind v bs := by
      simp only [Rd.ite_apply] at h1
      split at h1
      · by_cases hk : p.kind = .u8 ∨ p.kind = .u16 ∨ p.kind = .u32
        · exact Kind.readUnchecked_ok hk h1
        · refine Kind.read_ok (k := p.kind) (v := v) ?_
          rw [← h1]
          generalize p.kind = k at hk
          cases k <;> first | rfl | simp at hk
      · exact Kind.read_ok h1
    obtain ⟨bs, rfl, hv⟩ := hv
    refine ⟨.value p v, bs, rfl, rfl, ⟨ho1, bs, rfl, hv⟩, (putItem_value v ho2).symm, ?_, ?_⟩
    · exact fun hi _ => hd.1 hi
    · exact fun hi _ => hd.2 hi
  | subIdList =>
    simp only at ho
    subst ho
    obtain ⟨⟨v, m⟩, b1, h1, h2⟩ := Rd.bind_eq_ok.1 h
    cases h2
    obtain ⟨len, rfl, hv, rfl, -⟩ := VarInt.read_ok h1
    refine ⟨.value .subscriptionIdentifier (UInt32.ofNat (vbiValue len)), len, rfl, rfl,
      ⟨by decide, len, rfl, hv, (ofNat_vbi hv).symm⟩, by simp [putItem], ?_, ?_⟩
    · intro _ h; exact absurd h (by simp [WireItem.type, repeatable])
    · intro _ h; exact absurd h (by simp [Entry.wireType, repeatable])
  | user =>
    obtain ⟨k, b1, h1, h2⟩ := Rd.bind_eq_ok.1 h
    obtain ⟨v, b2, h3, h4⟩ := Rd.bind_eq_ok.1 h2
    cases h4
    obtain ⟨ks, rfl, hk⟩ := readStr_ok h1
    obtain ⟨vs, rfl, hv⟩ := readStr_ok h3
    refine ⟨.user k v, ks ++ vs, by simp, rfl, ⟨ks, vs, rfl, hk, hv⟩, rfl, ?_, ?_⟩
    · intro _ h; exact absurd h (by simp [WireItem.type, repeatable])
    · intro _ h; exact absurd h (by simp [Entry.wireType, repeatable])

theorem asyncReadEntry_ok {es : List Entry} {s : Spec.Section} (ht : TableOk s es)
    {P P' : Props} {n : Nat} {t : PropertyType} {e : Entry} {b rest : Bytes}
    (hs : Entry.select es t = some e)
    (h : Props.asyncReadEntry P e b = .ok ((P', n), rest)) :
    ∃ i bs, b = bs ++ rest ∧ bs.length = n ∧ i.type = t ∧ i.Bytes (propertyId t :: bs) ∧
      P' = putItem s P i ∧ (t ≠ .subscriptionIdentifier → Fresh s P i) := by
  obtain ⟨hm, rfl⟩ := Props.select_mem hs
  have ho := ht e hm
  cases e with
  | single p =>
    simp only at ho
    obtain ⟨ho1, ho2, -⟩ := ho
    simp only [Props.asyncReadEntry, Rd.ite_apply] at h
    split at h
    · cases h
    · rename_i hd
      obtain ⟨⟨v, n⟩, b1, h1, h2⟩ := Rd.bind_eq_ok.1 h
      cases h2
      obtain ⟨bs, rfl, e1, hv⟩ := Kind.asyncRead_ok h1
      refine ⟨.value p v, bs, rfl, e1, rfl, ⟨ho1, bs, rfl, hv⟩, (putItem_value v ho2).symm, ?_⟩
      intro hi _
      have hi : p ≠ .subscriptionIdentifier := hi
      show P.val p = none
      simpa [hi] using hd
  | subIdList =>
    simp only at ho
    subst ho
    obtain ⟨⟨v, m⟩, b1, h1, h2⟩ := Rd.bind_eq_ok.1 h
    cases h2
    obtain ⟨len, rfl, hv, rfl, e1⟩ := VarInt.asyncRead_ok h1
    exact ⟨.value .subscriptionIdentifier (UInt32.ofNat (vbiValue len)), len, rfl, e1, rfl,
      ⟨by decide, len, rfl, hv, (ofNat_vbi hv).symm⟩, by simp [putItem],
      fun h => absurd rfl h⟩
  | user =>
    obtain ⟨⟨k, n1⟩, b1, h1, h2⟩ := Rd.bind_eq_ok.1 h
    obtain ⟨⟨v, n2⟩, b2, h3, h4⟩ := Rd.bind_eq_ok.1 h2
    cases h4
    obtain ⟨ks, rfl, e1, hk⟩ := asyncReadStr_ok h1
    obtain ⟨vs, rfl, e2, hv⟩ := asyncReadStr_ok h3
    refine ⟨.user k v, ks ++ vs, by simp, by simp [e1, e2], rfl, ⟨ks, vs, rfl, hk, hv⟩, rfl, ?_⟩
    intro _ h; exact absurd h (by simp [WireItem.type, repeatable])

/-! ## loops -/

/-- each item is fresh when it is put -/
def AllFreshFor (s : Spec.Section) (skip : PropertyType → Prop) : Props → List WireItem → Prop
  | _, [] => True
  | P, i :: is => (¬ skip i.type → Fresh s P i) ∧ AllFreshFor s skip (putItem s P i) is

theorem putItem_val_inv {s : Spec.Section} {P : Props} {i : WireItem} {p : PropertyType}
    (h : i.type ≠ p) : (putItem s P i).val p = P.val p := by
  cases i with
  | value q v =>
    have h : q ≠ p := h
    by_cases hq : q = .subscriptionIdentifier
    · subst hq
      simp only [putItem]
      split
      · rfl
      · exact Props.set_val_other _ _ (Ne.symm h)
    · rw [putItem_value v (fun e => absurd e hq)]
      exact Props.set_val_other _ _ (Ne.symm h)
  | user k v => rfl

theorem syncLoop_ok {sp : Props.SyncSpec} {s : Spec.Section} (ht : TableOk s sp.entries)
    (hrep : ∀ p ∈ sp.inverted, repeatable s p = false) :
    ∀ (fuel : Nat) (P Q : Props) (b rest : Bytes), (∀ p ∈ sp.inverted, P.val p = none) →
      Props.syncLoop sp fuel P b = .ok (Q, rest) →
      ∃ items, rest = [] ∧ ItemsBytes items b ∧ Q = items.foldl (putItem s) P ∧
        AllFreshFor s (fun _ => False) P items ∧ (∀ i ∈ items, ¬ (s = .subAck ∧ i.type = .subscriptionIdentifier) → s ∈ carriers i.type) := by
  intro fuel
  induction fuel with
  | zero => intro P Q b rest _ h; cases h
  | succ fuel ih =>
    intro P Q b rest hinv h
    rw [Props.syncLoop] at h
    obtain ⟨t, b1, h1, h2⟩ := Rd.bind_eq_ok.1 h
    obtain ⟨x, b2, g1, g2⟩ := Rd.bind_eq_ok.1
      (afterLen (c := fun n => n = 0) (f := fun _ => DeErr.insufficientData 0 1) h1)
    obtain ⟨g3, rfl⟩ := lift_ok_inv g2
    rw [getU8_ok g1]
    have hx : x = propertyId t := by rw [propertyId_eq]; exact (PropertyType.toU8_fromU8 g3).symm
    cases hs : Entry.select sp.entries t with
    | none => rw [hs] at h2; cases h2
    | some e =>
      rw [hs] at h2
      obtain ⟨P', b3, h3, h4⟩ := Rd.bind_eq_ok.1 h2
      obtain ⟨i, bs, rfl, hit, hib, rfl, hf, hni⟩ := syncReadEntry_ok ht hs h3
      have hti : t ∉ sp.inverted := fun hm => hni hm (hrep t hm) (hinv t hm)
      have hc := ht.carriers hs
      obtain ⟨n, b4, h5, h6⟩ := Rd.bind_eq_ok.1 h4
      cases h5
      simp only [Rd.ite_apply] at h6
      subst hx
      split at h6
      · rename_i h0
        cases h6
        have h0 := List.eq_nil_of_length_eq_zero h0
        subst h0
        refine ⟨[i], rfl, ?_, rfl, ⟨fun _ => hf hti, trivial⟩, ?_⟩
        · have := ItemsBytes.cons hib .nil
          simpa using this
        · intro j hj hsa
          rw [List.mem_singleton] at hj
          subst hj; rw [hit] at hsa ⊢; exact hc hsa
      · obtain ⟨items, rfl, k1, rfl, k2, k3⟩ := ih _ _ _ _ (by
          intro p hp
          rw [putItem_val_inv (by rw [hit]; rintro rfl; exact hti hp)]
          exact hinv p hp) h6
        refine ⟨i :: items, rfl, ItemsBytes.cons hib k1, rfl, ⟨fun _ => hf hti, k2⟩, ?_⟩
        intro j hj hsa
        rcases List.mem_cons.1 hj with rfl | hj
        · rw [hit] at hsa ⊢; exact hc hsa
        · exact k3 j hj hsa

theorem asyncLoop_ok {es : List Entry} {s : Spec.Section} (ht : TableOk s es) (len : Nat) :
    ∀ (fuel : Nat) (P Q : Props) (n m : Nat) (b rest : Bytes),
      Props.asyncLoop es len fuel P n b = .ok ((Q, m), rest) →
      ∃ items bs, b = bs ++ rest ∧ n + bs.length = len ∧ ItemsBytes items bs ∧
        Q = items.foldl (putItem s) P ∧
        AllFreshFor s (fun p => p = .subscriptionIdentifier) P items ∧
        (∀ i ∈ items, ¬ (s = .subAck ∧ i.type = .subscriptionIdentifier) → s ∈ carriers i.type) := by
  intro fuel
  induction fuel with
  | zero => intro P Q n m b rest h; cases h
  | succ fuel ih =>
    intro P Q n m b rest h
    rw [Props.asyncLoop] at h
    obtain ⟨⟨t, one⟩, b1, h1, h2⟩ := Rd.bind_eq_ok.1 h
    obtain ⟨x, b2, g1, g2⟩ := Rd.bind_eq_ok.1 h1
    obtain ⟨t', b2', g3, g4⟩ := Rd.bind_eq_ok.1 g2
    cases g4
    obtain ⟨g5, rfl⟩ := lift_ok_inv g3
    rw [aU8_ok g1]
    have hx : x = propertyId t := by rw [propertyId_eq]; exact (PropertyType.toU8_fromU8 g5).symm
    simp only at h2
    cases hs : Entry.select es t with
    | none => rw [hs] at h2; cases h2
    | some e =>
      rw [hs] at h2
      obtain ⟨⟨P', k⟩, b3, h3, h4⟩ := Rd.bind_eq_ok.1 h2
      obtain ⟨i, bs, rfl, hk, hit, hib, rfl, hf⟩ := asyncReadEntry_ok ht hs h3
      have hc := ht.carriers hs
      subst hx
      simp only [Rd.ite_apply] at h4
      split at h4
      · rename_i h0
        cases h4
        refine ⟨[i], propertyId t :: bs, by simp, by simp; omega, ?_, rfl,
          ⟨fun h => hf (by rwa [hit] at h), trivial⟩, ?_⟩
        · have := ItemsBytes.cons hib .nil
          simpa using this
        · intro j hj hsa
          rw [List.mem_singleton] at hj
          subst hj; rw [hit] at hsa ⊢; exact hc hsa
      · obtain ⟨items, cs, rfl, e1, k1, rfl, k2, k3⟩ := ih _ _ _ _ _ _ h4
        refine ⟨i :: items, (propertyId t :: bs) ++ cs, by simp, by simp; omega,
          ItemsBytes.cons hib k1, rfl, ⟨fun h => hf (by rwa [hit] at h), k2⟩, ?_⟩
        intro j hj hsa
        rcases List.mem_cons.1 hj with rfl | hj
        · rw [hit] at hsa ⊢; exact hc hsa
        · exact k3 j hj hsa

/-! ## what the decoded set contains -/

theorem putItem_val_self {s : Spec.Section} {P : Props} {i : WireItem}
    (h : repeatable s i.type = false) :
    ∃ v, i = .value i.type v ∧ (putItem s P i).val i.type = some v := by
  cases i with
  | value p v =>
    refine ⟨v, rfl, ?_⟩
    rw [putItem_value v]
    · exact Props.set_val_same _ _ _
    · rintro rfl rfl; simp [WireItem.type, repeatable] at h
  | user k v => cases s <;> simp [WireItem.type, repeatable] at h

theorem foldl_val {s : Spec.Section} (items : List WireItem) (P : Props)
    (ho : AtMostOnce s items) (hf : ∀ i ∈ items, repeatable s i.type = false → P.val i.type = none)
    (p : PropertyType) (hp : repeatable s p = false) (v : p.kind.T) :
    (items.foldl (putItem s) P).val p = some v ↔ P.val p = some v ∨ .value p v ∈ items := by
  induction items generalizing P with
  | nil => simp
  | cons i is ih =>
    rw [AtMostOnce, List.pairwise_cons] at ho
    obtain ⟨ho1, ho2⟩ := ho
    rw [List.foldl_cons, ih _ ho2]
    · by_cases hi : i.type = p
      · subst hi
        obtain ⟨w, e1, e2⟩ := putItem_val_self (P := P) hp
        have h0 := hf i (by simp) hp
        rw [e2, h0]
        constructor
        · rintro (h | h)
          · simp only [Option.some.injEq] at h; subst h
            exact .inr (by rw [← e1]; simp)
          · exact .inr (by simp [h])
        · rintro (h | h)
          · cases h
          · rcases List.mem_cons.1 h with h | h
            · have h := h.trans e1
              simp only [WireItem.value.injEq, heq_eq_eq, true_and] at h
              left; rw [h]
            · have := ho1 _ h rfl
              rw [hp] at this; cases this
      · rw [putItem_val_inv hi, List.mem_cons]
        constructor
        · rintro (h | h)
          · exact .inl h
          · exact .inr (.inr h)
        · rintro (h | h | h)
          · exact .inl h
          · rw [← h] at hi; exact absurd rfl hi
          · exact .inr h
    · intro j hj hr
      by_cases hij : i.type = j.type
      · have := ho1 j hj hij
        rw [hij, hr] at this; cases this
      · rw [putItem_val_inv hij]
        exact hf j (by simp [hj]) hr

theorem foldl_users {s : Spec.Section} (items : List WireItem) (P : Props) :
    (items.foldl (putItem s) P).users =
      P.users ++ items.filterMap WireItem.user? := by
  induction items generalizing P with
  | nil => simp
  | cons i is ih =>
    rw [List.foldl_cons, ih]
    cases i with
    | value p v =>
      have : (putItem s P (.value p v)).users = P.users := by
        by_cases hq : p = .subscriptionIdentifier
        · subst hq; simp only [putItem]; split <;> rfl
        · rw [putItem_value v (fun e => absurd e hq)]; rfl
      rw [this]; simp [WireItem.user?, List.filterMap_cons]
    | user k v => simp [putItem, WireItem.user?]

theorem foldl_subIds {s : Spec.Section} (items : List WireItem) (P : Props) :
    (items.foldl (putItem s) P).subIds = P.subIds ++
      if s = .publish then items.filterMap WireItem.subId? else [] := by
  induction items generalizing P with
  | nil => simp
  | cons i is ih =>
    rw [List.foldl_cons, ih]
    cases i with
    | value p v =>
      cases p <;> try (simp [putItem, Props.set, WireItem.subId?, List.filterMap_cons]; done)
      by_cases h : s = .publish
      · simp [putItem, h, WireItem.subId?]
      · simp [putItem, h, Props.set]
    | user k v => simp [putItem, WireItem.subId?, List.filterMap_cons]

theorem decoded_of {s : Spec.Section} {items : List WireItem} (ho : AtMostOnce s items) :
    Decoded s items (items.foldl (putItem s) .empty) where
  single p hp v := by
    rw [foldl_val items .empty ho (fun _ _ _ => rfl) p hp v]
    simp [Props.empty]
  users := by rw [foldl_users]; simp [Props.empty]
  subIds := by rw [foldl_subIds]; simp [Props.empty]

theorem putItem_mono {s : Spec.Section} {P : Props} {i : WireItem} {p : PropertyType}
    (h : P.val p ≠ none) : (putItem s P i).val p ≠ none := by
  by_cases hi : i.type = p
  · subst hi
    cases i with
    | value q v =>
      by_cases hq : q = .subscriptionIdentifier
      · subst hq
        simp only [putItem]
        split
        · exact h
        · show (P.set _ v).val .subscriptionIdentifier ≠ none
          rw [Props.set_val_same]; simp
      · rw [putItem_value v (fun e => absurd e hq)]
        show (P.set _ v).val q ≠ none
        rw [Props.set_val_same]; simp
    | user k v => exact h
  · rw [putItem_val_inv hi]; exact h

theorem atMostOnce_of {s : Spec.Section} {skip : PropertyType → Prop} {items : List WireItem} {P : Props}
    (hs : ∀ p, skip p → repeatable s p = true) (h : AllFreshFor s skip P items) :
    AtMostOnce s items ∧ ∀ i ∈ items, repeatable s i.type = false → P.val i.type = none := by
  induction items generalizing P with
  | nil => exact ⟨.nil, by simp⟩
  | cons i is ih =>
    obtain ⟨h1, h2⟩ := h
    obtain ⟨k1, k2⟩ := ih h2
    have hns : ∀ j : WireItem, repeatable s j.type = false → ¬ skip j.type := by
      intro j hj hsk; rw [hs _ hsk] at hj; cases hj
    refine ⟨List.pairwise_cons.2 ⟨?_, k1⟩, ?_⟩
    · intro j hj hij
      by_cases hr : repeatable s i.type = true
      · exact hr
      · have hr : repeatable s i.type = false := by simpa using hr
        obtain ⟨w, -, e2⟩ := putItem_val_self (P := P) hr
        have := k2 j hj (by rw [← hij]; exact hr)
        rw [← hij, e2] at this
        cases this
    · intro j hj hr
      rcases List.mem_cons.1 hj with rfl | hj
      · exact h1 (hns _ hr) hr
      · have := k2 j hj hr
        apply Classical.byContradiction
        intro hc
        exact putItem_mono hc this

theorem atMostOnceBut_of {s : Spec.Section} {skip : PropertyType → Prop} {items : List WireItem}
    {P : Props} (h : AllFreshFor s skip P items) :
    items.Pairwise (fun i j => i.type = j.type → repeatable s i.type = true ∨ skip i.type) ∧
      ∀ i ∈ items, ¬ skip i.type → repeatable s i.type = false → P.val i.type = none := by
  induction items generalizing P with
  | nil => exact ⟨.nil, by simp⟩
  | cons i is ih =>
    obtain ⟨h1, h2⟩ := h
    obtain ⟨k1, k2⟩ := ih h2
    refine ⟨List.pairwise_cons.2 ⟨?_, k1⟩, ?_⟩
    · intro j hj hij
      by_cases hr : repeatable s i.type = true
      · exact .inl hr
      · by_cases hsk : skip i.type
        · exact .inr hsk
        have hr : repeatable s i.type = false := by simpa using hr
        obtain ⟨w, -, e2⟩ := putItem_val_self (P := P) hr
        have := k2 j hj (by rw [← hij]; exact hsk) (by rw [← hij]; exact hr)
        rw [← hij, e2] at this
        cases this
    · intro j hj hsk hr
      rcases List.mem_cons.1 hj with rfl | hj
      · exact h1 hsk hr
      · have := k2 j hj hsk hr
        apply Classical.byContradiction
        intro hc
        exact putItem_mono hc this

/-! ## the readers -/

theorem syncRead_ok {sp : Props.SyncSpec} {s : Spec.Section} (ht : TableOk s sp.entries)
    (hrep : ∀ p ∈ sp.inverted, repeatable s p = false) {P : Props} {b rest : Bytes}
    (h : Props.syncRead sp b = .ok (P, rest)) :
    ∃ len body items, b = len ++ (body ++ rest) ∧ IsVbi len ∧ ItemsBytes items body ∧
      (vbiValue len = body.length ∨
        sp.split = false ∧ rest = [] ∧ 0 < vbiValue len ∧ vbiValue len < body.length) ∧
      P = items.foldl (putItem s) .empty ∧ AtMostOnce s items ∧
      (∀ i ∈ items, ¬ (s = .subAck ∧ i.type = .subscriptionIdentifier) → s ∈ carriers i.type) := by
  obtain ⟨⟨n, k⟩, b1, h1, h2⟩ := Rd.bind_eq_ok.1 h
  obtain ⟨len, rfl, hv, rfl, -⟩ := VarInt.read_ok h1
  simp only [Rd.ite_apply] at h2
  split at h2
  · rename_i h0
    cases h2
    exact ⟨len, [], [], rfl, hv, .nil, .inl (by simp [h0]), rfl, .nil, by simp⟩
  · rename_i h0
    obtain ⟨a, b2, h3, h4⟩ := Rd.bind_eq_ok.1 h2
    cases h3
    simp only [Rd.ite_apply] at h4
    split at h4
    · cases h4
    · rename_i hl
      have hend : ∀ (Q : Props) (c : Bytes), (if (sp.authCheck &&
          ((Q.val .authenticationData).any (fun d => !d.isEmpty))
          && (Q.val .authenticationMethod).isNone) = true then Rd.de .malformedPacketWithInfo
          else pure Q : Rd Props) c = .ok (P, rest) → Q = P ∧ c = rest := by
        intro Q c hq
        simp only [Rd.ite_apply] at hq
        split at hq
        · cases hq
        · cases hq; exact ⟨rfl, rfl⟩
      split at h4
      · obtain ⟨data, b3, h5, h6⟩ := Rd.bind_eq_ok.1 h4
        obtain ⟨rfl, hd⟩ := splitTo_ok h5
        obtain ⟨Q, b4, h7, h8⟩ := Rd.bind_eq_ok.1 h6
        obtain ⟨rfl, rfl⟩ := hend _ _ h8
        unfold Props.onSlice at h7
        split at h7
        · rename_i a c hc
          simp only [Except.ok.injEq, Prod.mk.injEq] at h7
          obtain ⟨rfl, rfl⟩ := h7
          obtain ⟨items, rfl, k1, k2, k3, k4⟩ := syncLoop_ok ht hrep _ _ _ _ _ (fun _ _ => rfl) hc
          exact ⟨len, data, items, rfl, hv, k1, .inl hd.symm, k2,
            (atMostOnce_of (fun _ h => h.elim) k3).1, k4⟩
        · cases h7
      · rename_i hsp
        obtain ⟨Q, b4, h7, h8⟩ := Rd.bind_eq_ok.1 h4
        obtain ⟨rfl, rfl⟩ := hend _ _ h8
        obtain ⟨items, rfl, k1, k2, k3, k4⟩ := syncLoop_ok ht hrep _ _ _ _ _ (fun _ _ => rfl) h7
        refine ⟨len, b1, items, by simp, hv, k1, ?_, k2,
            (atMostOnce_of (fun _ h => h.elim) k3).1, k4⟩
        rcases Nat.lt_or_ge (vbiValue len) b1.length with hlt | hge
        · exact .inr ⟨by simpa using hsp, rfl, by omega, hlt⟩
        · exact .inl (by omega)

theorem asyncRead_ok {es : List Entry} {s : Spec.Section} (ht : TableOk s es) {P : Props} {n : Nat}
    {b rest : Bytes} (h : Props.asyncRead es b = .ok ((P, n), rest)) :
    ∃ len body items, b = len ++ (body ++ rest) ∧ IsVbi len ∧ ItemsBytes items body ∧
      vbiValue len = body.length ∧ P = items.foldl (putItem s) .empty ∧
      AllFreshFor s (fun p => p = .subscriptionIdentifier) .empty items ∧
      (∀ i ∈ items, ¬ (s = .subAck ∧ i.type = .subscriptionIdentifier) → s ∈ carriers i.type) := by
  obtain ⟨⟨n, k⟩, b1, h1, h2⟩ := Rd.bind_eq_ok.1 h
  obtain ⟨len, rfl, hv, rfl, -⟩ := VarInt.asyncRead_ok h1
  simp only [Rd.ite_apply] at h2
  split at h2
  · rename_i h0
    cases h2
    exact ⟨len, [], [], rfl, hv, .nil, by simp [h0], rfl, trivial, by simp⟩
  · obtain ⟨a, b2, h3, h4⟩ := Rd.bind_eq_ok.1 h2
    cases h3
    obtain ⟨⟨Q, m⟩, b3, h5, h6⟩ := Rd.bind_eq_ok.1 h4
    cases h6
    obtain ⟨items, bs, rfl, e1, k1, k2, k3, k4⟩ := asyncLoop_ok ht _ _ _ _ _ _ _ _ h5
    exact ⟨len, bs, items, rfl, hv, k1, by omega, k2, k3, k4⟩

end Mqrstt
