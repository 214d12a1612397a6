import Verif.Spec.Blame
import Verif.Proof.RobustExact
import Verif.Proof.Patience
/-!
# The errors of the decoder (C110)
-/

namespace Mqrstt
open Mqrstt.Spec _root_.Spec Mqrstt.Props

/-! ## readers whose errors satisfy a predicate on what they were given -/

/-- an error of the reader satisfies `Q` of any bytes that contain its input, and it reads from the front -/
structure Blames {α} (Q : Bytes → DeErr → Prop) (r : Rd α) : Prop where
  err : ∀ b e, r b = .error (.de e) → ∀ pre post, Q (pre ++ (b ++ post)) e
  ok : ∀ b a rest, r b = .ok (a, rest) → ∃ c, b = c ++ rest

section
variable {α β : Type} {Q : Bytes → DeErr → Prop}

theorem Blames.bind {x : Rd α} {f : α → Rd β} (hx : Blames Q x) (hf : ∀ a, Blames Q (f a)) : Blames Q (x >>= f) := by
  constructor
  · intro b e h pre post
    rcases Rd.bind_eq_error.1 h with h | ⟨a, b', h1, h2⟩
    · exact hx.err b e h pre post
    · obtain ⟨c, rfl⟩ := hx.ok _ _ _ h1
      have := (hf a).err b' e h2 (pre ++ c) post
      simpa using this
  · intro b a rest h
    obtain ⟨a', b', h1, h2⟩ := Rd.bind_eq_ok.1 h
    obtain ⟨c, rfl⟩ := hx.ok _ _ _ h1
    obtain ⟨d, rfl⟩ := (hf a').ok _ _ _ h2
    exact ⟨c ++ d, by simp⟩

theorem Blames.pure (a : α) : Blames Q (pure a : Rd α) :=
  ⟨fun b e h => by (cases h), fun b a rest h => by cases h; exact ⟨[], rfl⟩⟩

theorem Blames.de {e : DeErr} (h : ∀ b, Q b e) : Blames Q (Rd.de e : Rd α) :=
  ⟨fun b e' h' _ _ => by cases h'; exact h _, fun b a rest h => by cases h⟩

theorem Blames.fail {e : Fail} (he : ∀ x, e ≠ .de x) : Blames Q (Rd.fail e : Rd α) :=
  ⟨fun b e' h' => by injection h' with h'; exact absurd h' (he _), fun b a rest h => by cases h⟩

theorem Blames.ite {c : Prop} [Decidable c] {x y : Rd α} (hx : c → Blames Q x) (hy : ¬ c → Blames Q y) :
    Blames Q (if c then x else y) := by
  split
  · exact hx ‹_›
  · exact hy ‹_›

theorem Blames.bufLen : Blames Q bufLen :=
  ⟨fun b e h => (by cases h), fun b a rest h => (by cases h; exact ⟨[], rfl⟩)⟩

theorem Blames.lift {x : Except DeErr α} (h : ∀ e, x = .error e → ∀ b, Q b e) : Blames Q (Rd.lift x) := by
  cases x with
  | ok a => exact Blames.pure a
  | error e => exact Blames.de (h e rfl)

theorem Blames.map {f : α → β} {r : Rd α} (h : Blames Q r) : Blames Q (Rd.map f r) := h.bind fun _ => Blames.pure _

/-- the buffer a reader is given is at hand when it complains -/
theorem Blames.withLen {f : Nat → Rd α} (hf : ∀ b, (∀ e, f b.length b = .error (.de e) → ∀ pre post, Q (pre ++ (b ++ post)) e) ∧
    ∀ a rest, f b.length b = .ok (a, rest) → ∃ c, b = c ++ rest) : Blames Q (Mqrstt.bufLen >>= f) :=
  ⟨fun b e h => (hf b).1 e h, fun b a rest h => (hf b).2 a rest h⟩

end

/-! ## what is wanted of a predicate -/

/-- the complaints every reader of a value may make -/
structure Fair (Q : Bytes → DeErr → Prop) : Prop where
  malformed : ∀ b, Q b .malformedPacket
  info : ∀ b, Q b .malformedPacketWithInfo
  qos : ∀ b v, 2 < v.toNat → Q b (.unknownQoS v)
  text : ∀ b, BadText b → Q b .utf8Error
  short : ∀ b m n, m < n → m ≤ b.length → Q b (.insufficientData m n)

/-- the same for a stream, where nothing is said about what is missing -/
structure FairStream (Q : Bytes → DeErr → Prop) : Prop where
  malformed : ∀ b, Q b .malformedPacket
  info : ∀ b, Q b .malformedPacketWithInfo
  qos : ∀ b v, 2 < v.toNat → Q b (.unknownQoS v)
  text : ∀ b, BadText b → Q b .utf8Error

theorem qos_error {v : UInt8} {e : DeErr} (h : QoS.fromU8 v = .error e) : e = .unknownQoS v ∧ 2 < v.toNat := by
  unfold QoS.fromU8 at h
  split at h
  · cases h
  · split at h
    · cases h
    · split at h
      · cases h
      · cases h
        refine ⟨rfl, ?_⟩
        rename_i h0 h1 h2
        have h0 : v.toNat ≠ 0 := fun h => h0 (UInt8.toNat_inj.1 h)
        have h1 : v.toNat ≠ 1 := fun h => h1 (UInt8.toNat_inj.1 h)
        have h2 : v.toNat ≠ 2 := fun h => h2 (UInt8.toNat_inj.1 h)
        omega

section
variable {Q : Bytes → DeErr → Prop}

theorem getU8_blames : Blames Q getU8 := by
  constructor
  · intro b e h; cases b <;> cases h
  · intro b a rest h
    cases b with
    | nil => cases h
    | cons x b => cases h; exact ⟨[_], rfl⟩

theorem aU8_blames : Blames Q aU8 := by
  constructor
  · intro b e h; cases b <;> cases h
  · intro b a rest h
    cases b with
    | nil => cases h
    | cons x b => cases h; exact ⟨[_], rfl⟩

theorem getU16_blames : Blames Q getU16 := by
  constructor
  · intro b e h; match b, h with
    | [], h => cases h
    | [_], h => cases h
    | _ :: _ :: _, h => cases h
  · intro b a rest h; match b, h with
    | [], h => cases h
    | [_], h => cases h
    | x :: y :: _, h => cases h; exact ⟨[x, y], rfl⟩

theorem aU16_blames : Blames Q aU16 := by
  constructor
  · intro b e h; match b, h with
    | [], h => cases h
    | [_], h => cases h
    | _ :: _ :: _, h => cases h
  · intro b a rest h; match b, h with
    | [], h => cases h
    | [_], h => cases h
    | x :: y :: _, h => cases h; exact ⟨[x, y], rfl⟩

theorem getU32_blames : Blames Q getU32 := by
  constructor
  · intro b e h; match b, h with
    | [], h => cases h
    | [_], h => cases h
    | [_, _], h => cases h
    | [_, _, _], h => cases h
    | _ :: _ :: _ :: _ :: _, h => cases h
  · intro b a rest h; match b, h with
    | [], h => cases h
    | [_], h => cases h
    | [_, _], h => cases h
    | [_, _, _], h => cases h
    | x :: y :: z :: w :: _, h => cases h; exact ⟨[x, y, z, w], rfl⟩

theorem aU32_blames : Blames Q aU32 := by
  constructor
  · intro b e h; match b, h with
    | [], h => cases h
    | [_], h => cases h
    | [_, _], h => cases h
    | [_, _, _], h => cases h
    | _ :: _ :: _ :: _ :: _, h => cases h
  · intro b a rest h; match b, h with
    | [], h => cases h
    | [_], h => cases h
    | [_, _], h => cases h
    | [_, _, _], h => cases h
    | x :: y :: z :: w :: _, h => cases h; exact ⟨[x, y, z, w], rfl⟩

theorem splitTo_blames (n : Nat) : Blames Q (splitTo n) := by
  constructor
  · intro b e h; unfold splitTo at h; split at h <;> cases h
  · intro b a rest h; exact ⟨a, (splitTo_ok h).1⟩

theorem aExact_blames (n : Nat) : Blames Q (aExact n) := by
  constructor
  · intro b e h; unfold aExact at h; split at h <;> cases h
  · intro b a rest h; exact ⟨a, (aExact_ok h).1⟩

theorem rest_blames : Blames Q Publish.rest :=
  ⟨fun b e h => (by cases h), fun b a rest h => (by cases h; exact ⟨b, by simp⟩)⟩

/-- a check of the number of bytes at hand -/
theorem lack_blames (hq : Fair Q) {α} {m : Nat} {x : Nat → Rd α} (hx : ∀ n, Blames Q (x n)) :
    Blames Q (do let n ← bufLen; if n < m then Rd.de (.insufficientData n m) else x n : Rd α) := by
  apply Blames.withLen
  intro b
  simp only [Rd.ite_apply]
  split
  · rename_i hl
    refine ⟨fun e h pre post => ?_, fun a rest h => by cases h⟩
    cases h
    exact hq.short _ _ _ hl (by simp only [List.length_append]; omega)
  · exact ⟨fun e h pre post => (hx _).err b e h pre post, fun a rest h => (hx _).ok b a rest h⟩

/-- the check whether there is a byte at all -/
theorem lack0_blames (hq : Fair Q) {α} {x : Rd α} (hx : Blames Q x) :
    Blames Q (do if (← bufLen) = 0 then Rd.de (.insufficientData 0 1) else x : Rd α) :=
  Blames.bufLen.bind fun _ => Blames.ite (fun _ => Blames.de fun b => hq.short b 0 1 (by omega) (by omega)) fun _ => hx

theorem readU8_blames (hq : Fair Q) : Blames Q readU8 := lack0_blames hq getU8_blames
theorem readU16_blames (hq : Fair Q) : Blames Q readU16 := lack_blames hq fun _ => getU16_blames
theorem readU32_blames (hq : Fair Q) : Blames Q readU32 := lack_blames hq fun _ => getU32_blames

theorem readBool_blames (hq : Fair Q) : Blames Q readBool :=
  lack0_blames hq (getU8_blames.bind fun _ => Blames.ite (fun _ => Blames.pure _) fun _ =>
    Blames.ite (fun _ => Blames.pure _) fun _ => Blames.de hq.malformed)

theorem readQoS_blames (hq : Fair Q) : Blames Q readQoS :=
  lack0_blames hq (getU8_blames.bind fun v => Blames.lift fun e h b => by
    obtain ⟨rfl, hv⟩ := qos_error h
    exact hq.qos b v hv)

theorem readBin_blames (hq : Fair Q) : Blames Q readBin := by
  refine lack_blames hq fun _ => getU16_blames.bind fun l => ?_
  apply Blames.withLen
  intro b
  simp only [Rd.ite_apply]
  split
  · rename_i hl
    refine ⟨fun e h pre post => ?_, fun a rest h => by cases h⟩
    cases h
    exact hq.short _ _ _ hl (by simp only [List.length_append]; omega)
  · exact ⟨fun e h pre post => (splitTo_blames _).err b e h pre post, fun a rest h => (splitTo_blames (Q := Q) _).ok b a rest h⟩

theorem badText_of {pre post b : Bytes} {s rest bs : Bytes} (h : b = bs ++ rest) (hv : ValueBytes .bin s bs)
    (hs : ¬ validUtf8 s = true) : BadText (pre ++ (b ++ post)) := by
  obtain ⟨x, y, rfl, hl⟩ := hv
  exact ⟨x, y, s, ⟨pre, rest ++ post, by rw [h]; simp⟩, hl, by simpa using hs⟩

theorem fromUtf8_error {s b : Bytes} {e : DeErr} (h : fromUtf8 s b = .error (.de e)) :
    e = .utf8Error ∧ ¬ validUtf8 s = true := by
  unfold fromUtf8 at h
  split at h
  · cases h
  · cases h; exact ⟨rfl, ‹_›⟩

theorem readStr_blames (hq : Fair Q) : Blames Q readStr := by
  constructor
  · intro b e h pre post
    rcases Rd.bind_eq_error.1 h with h | ⟨s, b', h1, h2⟩
    · exact (readBin_blames hq).err b e h pre post
    · obtain ⟨rfl, hs⟩ := fromUtf8_error h2
      obtain ⟨bs, hb, hv⟩ := readBin_ok h1
      exact hq.text _ (badText_of hb hv hs)
  · intro b a rest h
    obtain ⟨bs, hb, -⟩ := readStr_ok h
    exact ⟨bs, hb⟩

theorem varRead_blames (hq : ∀ b, Q b .malformedPacket) : Blames Q VarInt.read := by
  constructor
  · intro b e h pre post
    rcases VarInt.vbi_or_open 4 b with ⟨init, last, rest, rfl, h1, h2, h3⟩ | ho
    · have hv : IsVbi (init ++ [last]) := ⟨init, last, rfl, h1, h2, h3⟩
      have := (VarInt.isVbi_reads hv rest).1
      rw [List.append_assoc, List.singleton_append, h] at this
      cases this
    · rw [VarInt.read, VarInt.readLoop_open _ b 4 0 0 ho] at h
      split at h <;> (cases h; exact hq _)
  · intro b a rest h
    obtain ⟨len, hb, -⟩ := VarInt.read_ok (n := a.1) (k := a.2) h
    exact ⟨len, hb⟩

theorem varAsyncRead_blames (hq : ∀ b, Q b .malformedPacket) : Blames Q VarInt.asyncRead := by
  constructor
  · intro b e h pre post
    rcases VarInt.vbi_or_open 4 b with ⟨init, last, rest, rfl, h1, h2, h3⟩ | ho
    · have hv : IsVbi (init ++ [last]) := ⟨init, last, rfl, h1, h2, h3⟩
      have := (VarInt.isVbi_reads hv rest).2.1
      rw [List.append_assoc, List.singleton_append, h] at this
      cases this
    · rw [VarInt.asyncRead, VarInt.readLoop_open _ b 4 0 0 ho] at h
      split at h
      · cases h; exact hq _
      · cases h
  · intro b a rest h
    obtain ⟨len, hb, -⟩ := VarInt.asyncRead_ok (n := a.1) (k := a.2) h
    exact ⟨len, hb⟩

theorem Kind.read_blames (hq : Fair Q) (k : Kind) : Blames Q k.read := by
  cases k
  · exact readU8_blames hq
  · exact readU16_blames hq
  · exact readU32_blames hq
  · exact readStr_blames hq
  · exact readBin_blames hq
  · exact (varRead_blames hq.malformed).bind fun _ => Blames.pure _
  · exact readBool_blames hq
  · exact readQoS_blames hq

theorem Kind.readUnchecked_blames (hq : Fair Q) (k : Kind) : Blames Q k.readUnchecked := by
  cases k
  · exact getU8_blames
  · exact getU16_blames
  · exact getU32_blames
  · exact readStr_blames hq
  · exact readBin_blames hq
  · exact (varRead_blames hq.malformed).bind fun _ => Blames.pure _
  · exact readBool_blames hq
  · exact readQoS_blames hq

theorem asyncReadBin_blames : Blames Q asyncReadBin :=
  aU16_blames.bind fun _ => (aExact_blames _).bind fun _ => Blames.pure _

theorem asyncReadStr_blames (hq : FairStream Q) : Blames Q asyncReadStr := by
  constructor
  · intro b e h pre post
    rcases Rd.bind_eq_error.1 h with h | ⟨⟨s, n⟩, b', h1, h2⟩
    · exact asyncReadBin_blames.err b e h pre post
    · rcases Rd.bind_eq_error.1 h2 with h2 | ⟨a, b2, h3, h4⟩
      · obtain ⟨rfl, hs⟩ := fromUtf8_error h2
        obtain ⟨bs, hb, -, hv⟩ := asyncReadBin_ok h1
        exact hq.text _ (badText_of hb hv hs)
      · cases h4
  · intro b a rest h
    obtain ⟨bs, hb, -⟩ := asyncReadStr_ok (s := a.1) (n := a.2) h
    exact ⟨bs, hb⟩

theorem Kind.asyncRead_blames (hq : FairStream Q) (k : Kind) : Blames Q k.asyncRead := by
  cases k
  · exact aU8_blames.bind fun _ => Blames.pure _
  · exact aU16_blames.bind fun _ => Blames.pure _
  · exact aU32_blames.bind fun _ => Blames.pure _
  · exact asyncReadStr_blames hq
  · exact asyncReadBin_blames
  · exact (varAsyncRead_blames hq.malformed).bind fun _ => Blames.pure _
  · exact aU8_blames.bind fun _ => Blames.ite (fun _ => Blames.pure _) fun _ =>
      Blames.ite (fun _ => Blames.pure _) fun _ => Blames.de hq.malformed
  · exact aU8_blames.bind fun v => (Blames.lift fun e h b => by
      obtain ⟨rfl, hv⟩ := qos_error h
      exact hq.qos b v hv).bind fun _ => Blames.pure _

end

/-! ## property sections -/

theorem PropertyType.fromU8_error {v : UInt8} {e : DeErr} (h : PropertyType.fromU8 v = .error e) :
    e = .unknownProperty v ∧ ∀ p, propertyId p ≠ v := by
  constructor
  · unfold PropertyType.fromU8 at h
    split at h <;> cases h
    rfl
  · rintro p rfl
    rw [propertyId_eq] at h
    cases p <;> cases h

theorem items_snoc {items : List WireItem} {good bs : Bytes} {i : WireItem} (h : ItemsBytes items good)
    (hi : i.Bytes bs) : ItemsBytes (items ++ [i]) (good ++ bs) := by
  induction h with
  | nil => have := ItemsBytes.cons hi .nil; simpa using this
  | cons hb hs ih => rw [List.append_assoc]; exact .cons hb ih

theorem putItem_marks {s : Spec.Section} {P : Props} {i : WireItem} {items : List WireItem}
    (h : ∀ p, P.val p ≠ none → ∃ j ∈ items, j.type = p) :
    ∀ p, (putItem s P i).val p ≠ none → ∃ j ∈ items ++ [i], j.type = p := by
  intro p hp
  by_cases hi : i.type = p
  · exact ⟨i, by simp, hi⟩
  · rw [putItem_val_inv hi] at hp
    obtain ⟨j, hj, e⟩ := h p hp
    exact ⟨j, by simp [hj], e⟩

/-- the complaints a reader of properties may make -/
structure SyncBlame (Q : Bytes → DeErr → Prop) (sp : Props.SyncSpec) (s : Spec.Section) : Prop where
  fair : Fair Q
  table : TableOk s sp.entries
  unknown : ∀ b items v, Follows b items v → (∀ p, propertyId p ≠ v) → Q b (.unknownProperty v)
  foreign : ∀ b items t, Follows b items (propertyId t) → Entry.select sp.entries t = none →
    Q b (.unexpectedProperty t sp.packet)
  twice : ∀ b items p, Entry.single p ∈ sp.entries → Follows b items (propertyId p) → (∃ i ∈ items, i.type = p) →
    Q b (.duplicateProperty (sp.dupLabel p))
  inverted : ∀ b items p, p ∈ sp.inverted → Follows b items (propertyId p) → Q b (.duplicateProperty (sp.dupLabel p))

section
variable {Q : Bytes → DeErr → Prop}

theorem syncEntry_error {sp : Props.SyncSpec} (hq : Fair Q) {P : Props} {ent : Entry} {b : Bytes} {e : DeErr}
    (h : Props.syncReadEntry sp P ent b = .error (.de e)) :
    (∃ p, ent = .single p ∧ e = .duplicateProperty (sp.dupLabel p) ∧ (p ∈ sp.inverted ∨ P.val p ≠ none)) ∨
      ∀ pre post, Q (pre ++ (b ++ post)) e := by
  cases ent with
  | single p =>
    have hv : (if sp.unchecked = true then (p.kind.readUnchecked >>= fun v => pure (P.set p v) : Rd Props) b
        else (p.kind.read >>= fun v => pure (P.set p v) : Rd Props) b) = .error (.de e) →
        ∀ pre post, Q (pre ++ (b ++ post)) e := by
      intro h
      split at h
      · exact ((Kind.readUnchecked_blames hq _).bind fun _ => Blames.pure _).err b e h
      · exact ((Kind.read_blames hq _).bind fun _ => Blames.pure _).err b e h
    rw [Props.syncReadEntry] at h
    by_cases hi : p ∈ sp.inverted
    · simp only [if_pos hi, Rd.ite_apply] at h
      split at h
      · cases h; exact .inl ⟨p, rfl, rfl, .inl hi⟩
      · exact .inr (hv h)
    · simp only [if_neg hi, Rd.ite_apply] at h
      split at h
      · rename_i hs
        cases h
        refine .inl ⟨p, rfl, rfl, .inr fun hn => ?_⟩
        rw [hn] at hs
        cases hs
      · exact .inr (hv h)
  | subIdList =>
    exact .inr (((varRead_blames hq.malformed).bind fun _ => Blames.pure _ :
      Blames Q (Props.syncReadEntry sp P .subIdList)).err b e h)
  | user =>
    exact .inr (((readStr_blames hq).bind fun _ => (readStr_blames hq).bind fun _ => Blames.pure _ :
      Blames Q (Props.syncReadEntry sp P .user)).err b e h)

theorem PropertyType.read_cases (b : Bytes) :
    (b = [] ∧ PropertyType.read b = .error (.de (.insufficientData 0 1))) ∨
    (∃ v b1, b = v :: b1 ∧ PropertyType.read b = .error (.de (.unknownProperty v)) ∧ ∀ p, propertyId p ≠ v) ∨
    (∃ t b1, b = propertyId t :: b1 ∧ PropertyType.read b = .ok (t, b1)) := by
  cases b with
  | nil => exact .inl ⟨rfl, rfl⟩
  | cons v b1 =>
    right
    have hr : PropertyType.read (v :: b1) = Rd.lift (PropertyType.fromU8 v) b1 := rfl
    cases h : PropertyType.fromU8 v with
    | error e =>
      obtain ⟨rfl, hp⟩ := PropertyType.fromU8_error h
      exact .inl ⟨v, b1, rfl, by rw [hr, h]; rfl, hp⟩
    | ok t =>
      have hx : v = propertyId t := by rw [propertyId_eq]; exact (PropertyType.toU8_fromU8 h).symm
      subst hx
      exact .inr ⟨t, b1, rfl, by rw [hr, h]; rfl⟩

theorem syncLoop_error {sp : Props.SyncSpec} {s : Spec.Section} (hs : SyncBlame Q sp s) :
    ∀ (fuel : Nat) (P : Props) (b : Bytes) (e : DeErr), Props.syncLoop sp fuel P b = .error (.de e) →
      ∀ before len good items post, IsVbi len → vbiValue len ≠ 0 → ItemsBytes items good →
        (∀ p, P.val p ≠ none → ∃ i ∈ items, i.type = p) →
        Q (before ++ (len ++ (good ++ (b ++ post)))) e := by
  intro fuel
  induction fuel with
  | zero => intro P b e h; cases h
  | succ fuel ih =>
    intro P b e h before len good items post hv h0 hg hP
    rcases PropertyType.read_cases b with ⟨rfl, hr⟩ | ⟨v, b1, rfl, hr, hp⟩ | ⟨t, b1, rfl, hr⟩
    · rw [Props.syncLoop, Rd.bind_apply, hr] at h
      cases h
      exact hs.fair.short _ _ _ (by omega) (by omega)
    · rw [Props.syncLoop, Rd.bind_apply, hr] at h
      cases h
      exact hs.unknown _ items v ⟨before, len, good, b1 ++ post, rfl, hv, h0, hg⟩ hp
    · have hf : Follows (before ++ (len ++ (good ++ (propertyId t :: b1 ++ post)))) items (propertyId t) :=
        ⟨before, len, good, b1 ++ post, rfl, hv, h0, hg⟩
      rw [Props.syncLoop, Rd.bind_apply, hr] at h
      simp only at h
      cases hsel : Entry.select sp.entries t with
      | none =>
        rw [hsel] at h
        cases h
        exact hs.foreign _ items t hf hsel
      | some ent =>
        rw [hsel] at h
        simp only at h
        rcases Rd.bind_eq_error.1 h with h | ⟨P', b', h1, h2⟩
        · rcases syncEntry_error hs.fair h with ⟨p, rfl, rfl, hd⟩ | hQ
          · obtain ⟨hm, he⟩ := Props.select_mem hsel
            have he : p = t := he
            subst he
            rcases hd with hd | hd
            · exact hs.inverted _ items p hd hf
            · exact hs.twice _ items p hm hf (hP p hd)
          · have := hQ (before ++ (len ++ (good ++ [propertyId t]))) post
            simpa using this
        · obtain ⟨i, bs, rfl, hi, hib, rfl, -⟩ := syncReadEntry_ok hs.table hsel h1
          rcases Rd.bind_eq_error.1 h2 with h2 | ⟨n, b2, h3, h4⟩
          · cases h2
          · cases h3
            simp only [Rd.ite_apply] at h4
            split at h4
            · cases h4
            · have := ih _ _ _ h4 before len (good ++ propertyId t :: bs) (items ++ [i]) post hv h0 (items_snoc hg hib)
                (putItem_marks hP)
              simpa using this

theorem syncRead_blames {sp : Props.SyncSpec} {s : Spec.Section} (hs : SyncBlame Q sp s)
    (hrep : ∀ p ∈ sp.inverted, repeatable s p = false) : Blames Q (Props.syncRead sp) := by
  constructor
  · intro b e h pre post
    rcases Rd.bind_eq_error.1 h with h | ⟨⟨n, k⟩, b1, h1, h2⟩
    · exact (varRead_blames hs.fair.malformed).err b e h pre post
    · obtain ⟨len, rfl, hv, rfl, -⟩ := VarInt.read_ok h1
      simp only [Rd.ite_apply] at h2
      split at h2
      · cases h2
      · rename_i h0
        rcases Rd.bind_eq_error.1 h2 with h2 | ⟨a, b2, h3, h4⟩
        · cases h2
        · cases h3
          simp only [Rd.ite_apply] at h4
          split at h4
          · rename_i hl
            cases h4
            split
            · exact hs.fair.malformed _
            · exact hs.fair.short _ _ _ hl (by simp only [List.length_append]; omega)
          · have hend : ∀ (R : Props) (c : Bytes), (if (sp.authCheck &&
                ((R.val .authenticationData).any (fun d => !d.isEmpty))
                && (R.val .authenticationMethod).isNone) = true then Rd.de .malformedPacketWithInfo
                else pure R : Rd Props) c = .error (.de e) → Q (pre ++ (len ++ b1 ++ post)) e := by
              intro R c hr
              simp only [Rd.ite_apply] at hr
              split at hr
              · cases hr; exact hs.fair.info _
              · cases hr
            split at h4
            · rcases Rd.bind_eq_error.1 h4 with h5 | ⟨data, b3, h5, h6⟩
              · exact absurd h5 (by unfold splitTo; split <;> simp)
              · obtain ⟨rfl, hd⟩ := splitTo_ok h5
                rcases Rd.bind_eq_error.1 h6 with h7 | ⟨R, b4, h7, h8⟩
                · unfold Props.onSlice at h7
                  split at h7
                  · cases h7
                  · rename_i f hf
                    cases h7
                    have := syncLoop_error hs _ _ _ _ hf pre len [] [] (b3 ++ post) hv h0 .nil
                      (fun p hp => absurd rfl hp)
                    simpa using this
                · exact hend _ _ h8
            · rcases Rd.bind_eq_error.1 h4 with h7 | ⟨R, b4, h7, h8⟩
              · have := syncLoop_error hs _ _ _ _ h7 pre len [] [] post hv h0 .nil (fun p hp => absurd rfl hp)
                simpa using this
              · exact hend _ _ h8
  · intro b a rest h
    obtain ⟨len, body, items, hb, -⟩ := syncRead_ok hs.table hrep h
    exact ⟨len ++ body, by simp [hb]⟩

end

/-- the complaints a reader of properties on a stream may make -/
structure AsyncBlame (Q : Bytes → DeErr → Prop) (es : List Entry) (s : Spec.Section) : Prop where
  fair : FairStream Q
  table : TableOk s es
  unknown : ∀ b items v, Follows b items v → (∀ p, propertyId p ≠ v) → Q b (.unknownProperty v)
  foreign : ∀ b items t, Follows b items (propertyId t) → Entry.select es t = none → Q b (.unexpectedProperty t .pubRel)
  twice : ∀ b items p, Entry.single p ∈ es → Follows b items (propertyId p) → (∃ i ∈ items, i.type = p) →
    Q b (.duplicateProperty (Props.asyncDupLabel p))

section
variable {Q : Bytes → DeErr → Prop}

theorem asyncEntry_error (hq : FairStream Q) {P : Props} {ent : Entry} {b : Bytes} {e : DeErr}
    (h : Props.asyncReadEntry P ent b = .error (.de e)) :
    (∃ p, ent = .single p ∧ e = .duplicateProperty (Props.asyncDupLabel p) ∧ P.val p ≠ none) ∨
      ∀ pre post, Q (pre ++ (b ++ post)) e := by
  cases ent with
  | single p =>
    have hv : Blames Q (do
        let (v, n) ← p.kind.asyncRead
        pure (P.set p v, n) : Rd (Props × Nat)) :=
      (Kind.asyncRead_blames hq _).bind fun _ => Blames.pure _
    simp only [Props.asyncReadEntry, Rd.ite_apply] at h
    split at h
    · rename_i hs
      cases h
      refine .inl ⟨p, rfl, rfl, fun hn => ?_⟩
      rw [hn] at hs
      cases hs.1
    · exact .inr (hv.err b e h)
  | subIdList =>
    exact .inr (((varAsyncRead_blames hq.malformed).bind fun _ => Blames.pure _ :
      Blames Q (Props.asyncReadEntry P .subIdList)).err b e h)
  | user =>
    exact .inr (((asyncReadStr_blames hq).bind fun _ => (asyncReadStr_blames hq).bind fun _ => Blames.pure _ :
      Blames Q (Props.asyncReadEntry P .user)).err b e h)

theorem PropertyType.asyncRead_cases (b : Bytes) :
    PropertyType.asyncRead b = .error .eof ∨
    (∃ v b1, b = v :: b1 ∧ PropertyType.asyncRead b = .error (.de (.unknownProperty v)) ∧ ∀ p, propertyId p ≠ v) ∨
    (∃ t b1, b = propertyId t :: b1 ∧ PropertyType.asyncRead b = .ok ((t, 1), b1)) := by
  cases b with
  | nil => exact .inl rfl
  | cons v b1 =>
    right
    have hr : PropertyType.asyncRead (v :: b1) = (Rd.lift (PropertyType.fromU8 v) >>= fun t => pure (t, 1)) b1 := rfl
    cases h : PropertyType.fromU8 v with
    | error e =>
      obtain ⟨rfl, hp⟩ := PropertyType.fromU8_error h
      exact .inl ⟨v, b1, rfl, by rw [hr, h]; rfl, hp⟩
    | ok t =>
      have hx : v = propertyId t := by rw [propertyId_eq]; exact (PropertyType.toU8_fromU8 h).symm
      subst hx
      exact .inr ⟨t, b1, rfl, by rw [hr, h]; rfl⟩

theorem asyncLoop_error {es : List Entry} {s : Spec.Section} (hs : AsyncBlame Q es s) (l : Nat) :
    ∀ (fuel : Nat) (P : Props) (m : Nat) (b : Bytes) (e : DeErr), Props.asyncLoop es l fuel P m b = .error (.de e) →
      ∀ before len good items post, IsVbi len → vbiValue len ≠ 0 → ItemsBytes items good →
        (∀ p, P.val p ≠ none → ∃ i ∈ items, i.type = p) →
        Q (before ++ (len ++ (good ++ (b ++ post)))) e := by
  intro fuel
  induction fuel with
  | zero => intro P m b e h; cases h
  | succ fuel ih =>
    intro P m b e h before len good items post hv h0 hg hP
    rcases PropertyType.asyncRead_cases b with hr | ⟨v, b1, rfl, hr, hp⟩ | ⟨t, b1, rfl, hr⟩
    · rw [Props.asyncLoop, Rd.bind_apply, hr] at h
      cases h
    · rw [Props.asyncLoop, Rd.bind_apply, hr] at h
      cases h
      exact hs.unknown _ items v ⟨before, len, good, b1 ++ post, rfl, hv, h0, hg⟩ hp
    · have hf : Follows (before ++ (len ++ (good ++ (propertyId t :: b1 ++ post)))) items (propertyId t) :=
        ⟨before, len, good, b1 ++ post, rfl, hv, h0, hg⟩
      rw [Props.asyncLoop, Rd.bind_apply, hr] at h
      simp only at h
      cases hsel : Entry.select es t with
      | none =>
        rw [hsel] at h
        cases h
        exact hs.foreign _ items t hf hsel
      | some ent =>
        rw [hsel] at h
        simp only at h
        rcases Rd.bind_eq_error.1 h with h | ⟨⟨P', n'⟩, b', h1, h2⟩
        · rcases asyncEntry_error hs.fair h with ⟨p, rfl, rfl, hd⟩ | hQ
          · obtain ⟨hm, he⟩ := Props.select_mem hsel
            have he : p = t := he
            subst he
            exact hs.twice _ items p hm hf (hP p hd)
          · have := hQ (before ++ (len ++ (good ++ [propertyId t]))) post
            simpa using this
        · obtain ⟨i, bs, rfl, -, hi, hib, rfl, -⟩ := asyncReadEntry_ok hs.table hsel h1
          simp only [Rd.ite_apply] at h2
          split at h2
          · cases h2
          · have := ih _ _ _ _ h2 before len (good ++ propertyId t :: bs) (items ++ [i]) post hv h0 (items_snoc hg hib)
              (putItem_marks hP)
            simpa using this

theorem asyncRead_blames {es : List Entry} {s : Spec.Section} (hs : AsyncBlame Q es s) : Blames Q (Props.asyncRead es) := by
  constructor
  · intro b e h pre post
    rcases Rd.bind_eq_error.1 h with h | ⟨⟨n, k⟩, b1, h1, h2⟩
    · exact (varAsyncRead_blames hs.fair.malformed).err b e h pre post
    · obtain ⟨len, rfl, hv, rfl, -⟩ := VarInt.asyncRead_ok h1
      simp only [Rd.ite_apply] at h2
      split at h2
      · cases h2
      · rename_i h0
        rcases Rd.bind_eq_error.1 h2 with h2 | ⟨a, b2, h3, h4⟩
        · cases h2
        · cases h3
          rcases Rd.bind_eq_error.1 h4 with h5 | ⟨⟨R, m⟩, b3, h5, h6⟩
          · have := asyncLoop_error hs _ _ _ _ _ _ h5 pre len [] [] post hv h0 .nil (fun p hp => absurd rfl hp)
            simpa using this
          · cases h6
  · intro b a rest h
    obtain ⟨len, body, items, hb, -⟩ := asyncRead_ok hs.table (P := a.1) (n := a.2) h
    exact ⟨len ++ body, by simp [hb]⟩

end

end Mqrstt
