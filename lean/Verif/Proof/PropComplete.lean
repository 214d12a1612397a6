import Verif.Proof.PropSection
/-!
# Every legal property section is read
-/

namespace Mqrstt
open Spec

theorem u16Bytes_of {v : UInt16} {x y : UInt8} (h : v.toNat = 256 * x.toNat + y.toNat) :
    u16Bytes v = [x, y] := by
  have e : v = mkU16 x y := UInt16.toNat_inj.1 (h.trans (mkU16_toNat x y).symm)
  subst e
  have hx := x.toNat_lt
  have hy := y.toNat_lt
  simp only [u16Bytes, List.cons.injEq, and_true]
  constructor <;> apply UInt8.toNat_inj.1 <;>
    simp only [UInt16.toNat_toUInt8, UInt16.toNat_shiftRight, mkU16_toNat, Nat.shiftRight_eq_div_pow] <;>
    simp <;> omega

theorem u32Bytes_of {v : UInt32} {x y z u : UInt8}
    (h : v.toNat = 16777216 * x.toNat + 65536 * y.toNat + 256 * z.toNat + u.toNat) :
    u32Bytes v = [x, y, z, u] := by
  have e : v = mkU32 x y z u := UInt32.toNat_inj.1 (h.trans (mkU32_toNat x y z u).symm)
  subst e
  have hx := x.toNat_lt
  have hy := y.toNat_lt
  have hz := z.toNat_lt
  have hu := u.toNat_lt
  simp only [u32Bytes, List.cons.injEq, and_true]
  refine ⟨?_, ?_, ?_, ?_⟩ <;> apply UInt8.toNat_inj.1 <;>
    simp only [UInt32.toNat_toUInt8, UInt32.toNat_shiftRight, mkU32_toNat, Nat.shiftRight_eq_div_pow] <;>
    simp <;> omega

theorem ofNat16_toNat {n : Nat} {x y : UInt8} (h : n = 256 * x.toNat + y.toNat) :
    n ≤ 65535 ∧ (UInt16.ofNat n).toNat = 256 * x.toNat + y.toNat := by
  have hx := x.toNat_lt
  have hy := y.toNat_lt
  refine ⟨by omega, ?_⟩
  rw [UInt16.toNat_ofNat']
  omega

theorem ValueBytes.canonical {k : Kind} {v : k.T} {bs : Bytes} (hk : k ≠ .var)
    (h : ValueBytes k v bs) : ValueOk k v ∧ bs = k.bytes v := by
  cases k with
  | var => exact absurd rfl hk
  | u8 => exact ⟨trivial, h⟩
  | u16 => obtain ⟨x, y, rfl, h⟩ := h; exact ⟨trivial, (u16Bytes_of h).symm⟩
  | u32 => obtain ⟨x, y, z, u, rfl, h⟩ := h; exact ⟨trivial, (u32Bytes_of h).symm⟩
  | str =>
    obtain ⟨x, y, rfl, h⟩ := h
    obtain ⟨h1, h2⟩ := ofNat16_toNat h
    refine ⟨h1, ?_⟩
    simp only [Kind.bytes, Kind.write, strBytes, binBytes, u16Bytes_of h2]; rfl
  | bin =>
    obtain ⟨x, y, rfl, h⟩ := h
    obtain ⟨h1, h2⟩ := ofNat16_toNat h
    refine ⟨h1, ?_⟩
    simp only [Kind.bytes, Kind.write, binBytes, u16Bytes_of h2]; rfl
  | bool => exact ⟨trivial, h.trans (by cases v <;> rfl)⟩
  | qos => exact ⟨trivial, h.trans (by cases v <;> rfl)⟩

theorem ValueBytes.read {k : Kind} {v : k.T} {bs : Bytes} (h : ValueBytes k v bs) (rest : Bytes) :
    k.read (bs ++ rest) = .ok (v, rest) ∧ k.readUnchecked (bs ++ rest) = .ok (v, rest) ∧
      k.asyncRead (bs ++ rest) = .ok ((v, bs.length), rest) := by
  by_cases hk : k = .var
  · subst hk
    obtain ⟨h1, h2⟩ := h
    have hv : UInt32.ofNat (vbiValue bs) = v := UInt32.toNat_inj.1 ((ofNat_vbi h1).trans h2)
    obtain ⟨r1, r2, -⟩ := VarInt.isVbi_reads h1 rest
    have e1 : Kind.read .var (bs ++ rest) = .ok (v, rest) := by
      simp only [Kind.read]; rw [Rd.bind_ok r1, ← hv]; rfl
    refine ⟨e1, e1, ?_⟩
    simp only [Kind.asyncRead]; rw [Rd.bind_ok r2, ← hv]; rfl
  · obtain ⟨h1, rfl⟩ := ValueBytes.canonical hk h
    exact ⟨Kind.read_bytes h1 rest, Kind.readUnchecked_bytes h1 rest, Kind.asyncRead_bytes h1 rest⟩

/-- the match arm for a property in a section -/
def armOf (s : Spec.Section) : PropertyType → Entry
  | .userProperty => .user
  | .subscriptionIdentifier => if s = .publish then .subIdList else .single .subscriptionIdentifier
  | p => .single p

theorem syncReadEntry_put {sp : Props.SyncSpec} {s : Spec.Section} {P : Props} {i : WireItem}
    {bs : List UInt8} (h : i.Bytes bs) (hinv : i.type ∉ sp.inverted) (hf : Fresh s P i) (rest : Bytes) :
    ∃ vs, bs = propertyId i.type :: vs ∧
      Props.syncReadEntry sp P (armOf s i.type) (vs ++ rest) = .ok (putItem s P i, rest) := by
  cases i with
  | user k v =>
    obtain ⟨ks, vs, rfl, hk, hv⟩ := h
    refine ⟨ks ++ vs, rfl, ?_⟩
    simp only [WireItem.type, armOf, Props.syncReadEntry, List.append_assoc]
    have e1 := (ValueBytes.read hk (vs ++ rest)).1
    have e2 := (ValueBytes.read hv rest).1
    simp only [Kind.read] at e1 e2
    rw [Rd.bind_ok e1, Rd.bind_ok e2]
    rfl
  | value p v =>
    obtain ⟨hu, vs, rfl, hv⟩ := h
    refine ⟨vs, rfl, ?_⟩
    by_cases hp : p = .subscriptionIdentifier ∧ s = .publish
    · obtain ⟨rfl, rfl⟩ := hp
      have hv' : IsVbi vs ∧ vbiValue vs = v.toNat := hv
      have e : UInt32.ofNat (vbiValue vs) = v := UInt32.toNat_inj.1 ((ofNat_vbi hv'.1).trans hv'.2)
      simp only [WireItem.type, armOf, if_true, Props.syncReadEntry]
      rw [Rd.bind_ok (VarInt.isVbi_reads hv'.1 rest).1]
      simp [putItem, e]
    · have ha : armOf s p = .single p := by
        cases p <;> first | rfl | exact absurd rfl hu | (simp only [armOf]; rw [if_neg (fun e => hp ⟨rfl, e⟩)])
      have hr : repeatable s p = false := by
        cases p <;> cases s <;> first | rfl | exact absurd rfl hu | exact absurd ⟨rfl, rfl⟩ hp
      have hn : P.val p = none := hf hr
      have hi' : p ∉ sp.inverted := hinv
      simp only [WireItem.type, ha, Props.syncReadEntry, hn, Option.isNone_none, Option.isSome_none]
      rw [putItem_value v (fun e1 e2 => hp ⟨e1, e2⟩)]
      simp only [if_neg hi', Bool.false_eq_true, if_false]
      split
      · rw [Rd.bind_ok (ValueBytes.read hv rest).2.1]; rfl
      · rw [Rd.bind_ok (ValueBytes.read hv rest).1]; rfl

theorem asyncReadEntry_put {s : Spec.Section} {P : Props} {i : WireItem}
    {bs : List UInt8} (h : i.Bytes bs) (hf : Fresh s P i) (rest : Bytes) :
    ∃ vs, bs = propertyId i.type :: vs ∧
      Props.asyncReadEntry P (armOf s i.type) (vs ++ rest) = .ok ((putItem s P i, vs.length), rest) := by
  cases i with
  | user k v =>
    obtain ⟨ks, vs, rfl, hk, hv⟩ := h
    refine ⟨ks ++ vs, rfl, ?_⟩
    simp only [WireItem.type, armOf, Props.asyncReadEntry, List.append_assoc]
    have e1 := (ValueBytes.read hk (vs ++ rest)).2.2
    have e2 := (ValueBytes.read hv rest).2.2
    simp only [Kind.asyncRead] at e1 e2
    rw [Rd.bind_ok e1, Rd.bind_ok e2]
    simp [putItem]
  | value p v =>
    obtain ⟨hu, vs, rfl, hv⟩ := h
    refine ⟨vs, rfl, ?_⟩
    by_cases hp : p = .subscriptionIdentifier ∧ s = .publish
    · obtain ⟨rfl, rfl⟩ := hp
      have hv' : IsVbi vs ∧ vbiValue vs = v.toNat := hv
      have e : UInt32.ofNat (vbiValue vs) = v := UInt32.toNat_inj.1 ((ofNat_vbi hv'.1).trans hv'.2)
      simp only [WireItem.type, armOf, if_true, Props.asyncReadEntry]
      rw [Rd.bind_ok (VarInt.isVbi_reads hv'.1 rest).2.1]
      simp [putItem, e]
    · have ha : armOf s p = .single p := by
        cases p <;> first | rfl | exact absurd rfl hu | (simp only [armOf]; rw [if_neg (fun e => hp ⟨rfl, e⟩)])
      have hr : repeatable s p = false := by
        cases p <;> cases s <;> first | rfl | exact absurd rfl hu | exact absurd ⟨rfl, rfl⟩ hp
      have hn : P.val p = none := hf hr
      simp only [WireItem.type, ha, Props.asyncReadEntry, hn, Option.isSome_none,
        Bool.false_eq_true, false_and, if_false]
      rw [putItem_value v (fun e1 e2 => hp ⟨e1, e2⟩), Rd.bind_ok (ValueBytes.read hv rest).2.2]; rfl

theorem fresh_of {s : Spec.Section} {items : List WireItem} {P : Props} (ho : AtMostOnce s items)
    (hf : ∀ i ∈ items, repeatable s i.type = false → P.val i.type = none) :
    AllFreshFor s (fun _ => False) P items := by
  induction items generalizing P with
  | nil => trivial
  | cons i is ih =>
    rw [AtMostOnce, List.pairwise_cons] at ho
    refine ⟨fun _ => hf i (by simp), ih ho.2 ?_⟩
    intro j hj hr
    by_cases e : i.type = j.type
    · have := ho.1 j hj e
      rw [e, hr] at this; cases this
    · rw [putItem_val_inv e]; exact hf j (by simp [hj]) hr

theorem syncLoop_complete {sp : Props.SyncSpec} {s : Spec.Section} {i : WireItem} {items : List WireItem} {b : List UInt8}
    (h : ItemsBytes (i :: items) b)
    (hsel : ∀ j ∈ i :: items, Entry.select sp.entries j.type = some (armOf s j.type))
    (hinv : ∀ j ∈ i :: items, j.type ∉ sp.inverted) {P : Props} (hf : AllFreshFor s (fun _ => False) P (i :: items))
    {fuel : Nat} (hfu : b.length ≤ fuel) :
    Props.syncLoop sp fuel P b = .ok ((i :: items).foldl (putItem s) P, []) := by
  induction items generalizing i b P fuel with
  | nil =>
    cases h with
    | @cons _ _ bs cs hi his =>
      cases his
      obtain ⟨vs, rfl, e⟩ := syncReadEntry_put hi (hinv i (by simp)) (hf.1 (fun h => h)) []
      cases fuel with
      | zero => simp at hfu
      | succ fuel =>
        rw [List.cons_append, Props.syncLoop, propertyId_eq, Rd.bind_ok (PropertyType.read_toU8 _ _)]
        simp only [hsel i (by simp)]
        rw [Rd.bind_ok e]
        rfl
  | cons j items ih =>
    cases h with
    | @cons _ _ bs cs hi his =>
      obtain ⟨vs, rfl, e⟩ := syncReadEntry_put hi (hinv i (by simp)) (hf.1 (fun h => h)) cs
      cases fuel with
      | zero => simp at hfu
      | succ fuel =>
        rw [List.cons_append, Props.syncLoop, propertyId_eq, Rd.bind_ok (PropertyType.read_toU8 _ _)]
        simp only [hsel i (by simp)]
        rw [Rd.bind_ok e]
        have hlen : cs.length ≠ 0 := by
          cases his with
          | @cons _ _ bs' cs' hj _ => obtain ⟨vs', rfl⟩ := WireItem.Bytes.head hj; simp
        simp only [Rd.bufLen_bind, Rd.ite_apply]
        rw [if_neg hlen]
        rw [ih his (fun k hk => hsel k (by simp [List.mem_cons.1 hk])) (fun k hk => hinv k (by simp [List.mem_cons.1 hk])) hf.2
          (by simp at hfu; omega)]
        rfl

theorem asyncLoop_complete {es : List Entry} {s : Spec.Section} {i : WireItem} {items : List WireItem} {b : List UInt8}
    (h : ItemsBytes (i :: items) b)
    (hsel : ∀ j ∈ i :: items, Entry.select es j.type = some (armOf s j.type))
    {P : Props} (hf : AllFreshFor s (fun _ => False) P (i :: items))
    {fuel len n : Nat} (hfu : b.length ≤ fuel) (hn : n + b.length = len) (rest : Bytes) :
    Props.asyncLoop es len fuel P n (b ++ rest) = .ok (((i :: items).foldl (putItem s) P, len), rest) := by
  induction items generalizing i b P fuel n with
  | nil =>
    cases h with
    | @cons _ _ bs cs hi his =>
      cases his
      obtain ⟨vs, rfl, e⟩ := asyncReadEntry_put hi (hf.1 (fun h => h)) rest
      cases fuel with
      | zero => simp at hfu
      | succ fuel =>
        rw [List.append_nil, List.cons_append, Props.asyncLoop, propertyId_eq,
          Rd.bind_ok (PropertyType.asyncRead_toU8 _ _)]
        simp only [hsel i (by simp)]
        rw [Rd.bind_ok e]
        simp only [List.append_nil, List.length_cons] at hn
        simp only [Rd.ite_apply]
        rw [if_pos (by omega)]
        simp; omega
  | cons j items ih =>
    cases h with
    | @cons _ _ bs cs hi his =>
      obtain ⟨vs, rfl, e⟩ := asyncReadEntry_put hi (hf.1 (fun h => h)) (cs ++ rest)
      cases fuel with
      | zero => simp at hfu
      | succ fuel =>
        rw [List.append_assoc, List.cons_append, Props.asyncLoop, propertyId_eq,
          Rd.bind_ok (PropertyType.asyncRead_toU8 _ _)]
        simp only [hsel i (by simp)]
        rw [Rd.bind_ok e]
        have hlen : cs.length ≠ 0 := by
          cases his with
          | @cons _ _ bs' cs' hj _ => obtain ⟨vs', rfl⟩ := WireItem.Bytes.head hj; simp
        simp only [List.cons_append, List.length_cons, List.length_append] at hn hfu
        simp only [Rd.ite_apply]
        rw [if_neg (by omega)]
        rw [ih his (fun k hk => hsel k (by simp [List.mem_cons.1 hk])) hf.2 (by omega) (by omega)]
        rfl

theorem section_cases {items : List WireItem} {body : List UInt8} (h : ItemsBytes items body) :
    items = [] ∧ body = [] ∨ ∃ i is, items = i :: is ∧ 0 < body.length := by
  cases h with
  | nil => exact .inl ⟨rfl, rfl⟩
  | cons hi _ =>
    obtain ⟨vs, rfl⟩ := WireItem.Bytes.head hi
    exact .inr ⟨_, _, rfl, by simp⟩

theorem syncRead_complete {sp : Props.SyncSpec} {s : Spec.Section} {items : List WireItem}
    {sec rest : List UInt8} (h : IsSection items sec)
    (hsel : ∀ j ∈ items, Entry.select sp.entries j.type = some (armOf s j.type))
    (hinv : ∀ j ∈ items, j.type ∉ sp.inverted) (ho : AtMostOnce s items)
    (hauth : sp.authCheck = true → (∃ v, .value .authenticationData v ∈ items) →
      ∃ v, .value .authenticationMethod v ∈ items)
    (hrest : sp.split = false → rest = []) :
    Props.syncRead sp (sec ++ rest) = .ok (items.foldl (putItem s) .empty, rest) := by
  obtain ⟨len, body, rfl, hv, hl, hi⟩ := h
  rw [List.append_assoc, Props.syncRead, Rd.bind_ok (VarInt.isVbi_reads hv _).1]
  rcases section_cases hi with ⟨rfl, rfl⟩ | ⟨i, is, rfl, hpos⟩
  · simp only [List.length_nil] at hl
    simp [hl]
  · simp only [Rd.ite_apply, Rd.bufLen_bind]
    rw [if_neg (by omega), if_neg (by simp only [List.length_append]; omega)]
    have hf : AllFreshFor s (fun _ => False) .empty (i :: is) := fresh_of ho (fun _ _ _ => rfl)
    have hloop : ∀ fuel, body.length ≤ fuel → Props.syncLoop sp fuel .empty body = .ok ((i :: is).foldl (putItem s) .empty, []) :=
      fun fuel hfu => syncLoop_complete hi hsel hinv hf hfu
    have hd := decoded_of ho
    have hchk : ¬ ((sp.authCheck && (((i :: is).foldl (putItem s) .empty).val .authenticationData).any (fun d => !d.isEmpty)
        && (((i :: is).foldl (putItem s) .empty).val .authenticationMethod).isNone) = true) := by
      intro hc
      simp only [Bool.and_eq_true] at hc
      obtain ⟨⟨h1, h2⟩, h3⟩ := hc
      cases hval : ((i :: is).foldl (putItem s) .empty).val .authenticationData with
      | none => rw [hval] at h2; cases h2
      | some d =>
        have hm := (hd.single .authenticationData (by cases s <;> rfl) d).1 hval
        obtain ⟨v, hv'⟩ := hauth h1 ⟨d, hm⟩
        have := (hd.single .authenticationMethod (by cases s <;> rfl) v).2 hv'
        rw [this] at h3; cases h3
    by_cases hs : sp.split = true
    · rw [if_pos hs, hl, Rd.bind_ok (splitTo_append _ _)]
      rw [Rd.bind_ok (a := (i :: is).foldl (putItem s) .empty) (b' := rest)
        (by simp only [Props.onSlice, hloop _ (Nat.le_succ _)])]
      simp only [Rd.ite_apply]
      rw [if_neg hchk]
      rfl
    · rw [if_neg hs]
      have : rest = [] := hrest (by simpa using hs)
      subst this
      rw [List.append_nil, Rd.bind_ok (hloop _ (Nat.le_succ _))]
      simp only [Rd.ite_apply]
      rw [if_neg hchk]
      rfl

theorem asyncRead_complete {es : List Entry} {s : Spec.Section} {items : List WireItem}
    {sec rest : List UInt8} (h : IsSection items sec)
    (hsel : ∀ j ∈ items, Entry.select es j.type = some (armOf s j.type)) (ho : AtMostOnce s items) :
    Props.asyncRead es (sec ++ rest) = .ok ((items.foldl (putItem s) .empty, sec.length), rest) := by
  obtain ⟨len, body, rfl, hv, hl, hi⟩ := h
  rw [List.append_assoc, Props.asyncRead, Rd.bind_ok (VarInt.isVbi_reads hv _).2.1]
  rcases section_cases hi with ⟨rfl, rfl⟩ | ⟨i, is, rfl, hpos⟩
  · simp only [List.length_nil] at hl
    simp [hl]
  · simp only [Rd.ite_apply, Rd.bufLen_bind]
    rw [if_neg (by omega)]
    have hf : AllFreshFor s (fun _ => False) .empty (i :: is) := fresh_of ho (fun _ _ _ => rfl)
    rw [Rd.bind_ok (asyncLoop_complete hi hsel hf (by simp; omega) (by rw [hl]; omega) rest)]
    simp [hl]

/-! ## re-encoded length of the properties of a subscription acknowledgement -/

theorem isVbi_len_le {len : Bytes} (h : IsVbi len) : VarInt.len (vbiValue len) ≤ len.length := by
  obtain ⟨init, last, rfl, h1, h2, h3⟩ := h
  unfold more at h3
  match init, h1 with
  | [], _ =>
    simp only [List.nil_append, vbiValue, VarInt.len, List.length_singleton]
    split <;> (try split) <;> (try split) <;> omega
  | [a], _ =>
    simp only [List.cons_append, List.nil_append, vbiValue, VarInt.len, List.length_cons, List.length_nil]
    split <;> (try split) <;> (try split) <;> omega
  | [a, b], _ =>
    simp only [List.cons_append, List.nil_append, vbiValue, VarInt.len, List.length_cons, List.length_nil]
    split <;> (try split) <;> (try split) <;> omega
  | [a, b, c], _ =>
    have := VarInt.len_le (vbiValue ([a, b, c] ++ [last]))
    simpa using this
  | _ :: _ :: _ :: _ :: _, h => simp at h; omega

/-- the shortest encoding has the length the code computes -/
theorem isVbi_minimal {len : Bytes} (h : IsVbi len)
    (hm : ∀ len', IsVbi len' → vbiValue len' = vbiValue len → len.length ≤ len'.length) :
    len.length = VarInt.len (vbiValue len) := by
  have h1 := isVbi_len_le h
  obtain ⟨init, last, -, -, h2, h3, h4, h5, h6⟩ := VarInt.write_spec (vbiValue len)
    (by have := isVbi_lt h; omega)
  have := hm _ ⟨init, last, rfl, h2, h3, h4⟩ h5
  omega

theorem str_length {v : Str} {bs : Bytes} (h : ValueBytes .str v bs) : bs.length = strWireLen v := by
  obtain ⟨x, y, rfl, h⟩ := h
  simp [strWireLen]

theorem wireLen_put {s : Spec.Section} {es : List Entry} {items : List WireItem} {b : List UInt8}
    (h : ItemsBytes items b)
    (he : (es = ackEntries ∧ ∀ i ∈ items, i.type = .reasonString ∨ i.type = .userProperty) ∨
      es = subscribeEntries ∧ ∀ i ∈ items, i.type = .userProperty)
    {P : Props} (hf : AllFreshFor s (fun _ => False) P items) :
    (items.foldl (putItem s) P).wireLen es = P.wireLen es + b.length := by
  induction h generalizing P with
  | nil => rfl
  | @cons i is bs cs hi his ih =>
    rw [List.foldl_cons, ih (by
      rcases he with ⟨rfl, he⟩ | ⟨rfl, he⟩
      · exact .inl ⟨rfl, fun i hi => he i (by simp [hi])⟩
      · exact .inr ⟨rfl, fun i hi => he i (by simp [hi])⟩) hf.2, List.length_append]
    have key : (putItem s P i).wireLen es = P.wireLen es + bs.length := by
      cases i with
      | user k v =>
        obtain ⟨ks, vs, rfl, hk, hv⟩ := hi
        have e1 := str_length hk
        have e2 := str_length hv
        rcases he with ⟨rfl, -⟩ | ⟨rfl, -⟩ <;>
          simp [putItem, Props.wireLen, ackEntries, subscribeEntries, Props.entryWireLen, e1, e2] <;> omega
      | value p v =>
        rcases he with ⟨rfl, he⟩ | ⟨rfl, he⟩
        · rcases he _ (List.mem_cons_self ..) with e | e
          · have e : p = .reasonString := e
            subst e
            obtain ⟨-, vs, rfl, hv⟩ := hi
            have hn : P.val .reasonString = none := hf.1 (fun h => h) (by cases s <;> rfl)
            have e1 := str_length hv
            have : putItem s P (.value .reasonString v) = P.set .reasonString v := rfl
            simp [this, Props.wireLen, ackEntries, Props.entryWireLen, hn, Props.set_val_same, e1, Kind.wireLen]
            simp [Props.set]
            omega
          · exact absurd e hi.1
        · exact absurd (he _ (List.mem_cons_self ..)) hi.1
    omega

end Mqrstt
