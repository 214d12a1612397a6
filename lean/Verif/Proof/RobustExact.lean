import Verif.Proof.Safe
import Verif.Proof.PropComplete
import Verif.Spec.Truncated
/-!
# Where the buffered reader panics
-/

namespace Mqrstt
open Spec

theorem ConnectFlags.fromU8_iff (v : UInt8) : (∃ f, ConnectFlags.fromU8 v = .ok f) ↔ v.toNat / 8 % 4 ≠ 3 := by
  have key : ∀ n : Fin 256, (ConnectFlags.fromU8 (UInt8.ofNat n.val)).toBool =
      decide ((UInt8.ofNat n.val).toNat / 8 % 4 ≠ 3) := by decide +kernel
  have := key ⟨v.toNat, v.toNat_lt⟩
  simp only [UInt8.ofNat_toNat] at this
  cases h : ConnectFlags.fromU8 v with
  | ok f =>
    rw [h] at this
    refine ⟨fun _ => ?_, fun _ => ⟨f, rfl⟩⟩
    exact of_decide_eq_true this.symm
  | error e =>
    rw [h] at this
    refine ⟨fun ⟨_, h⟩ => (by cases h), fun h => ?_⟩
    exact absurd h (of_decide_eq_false this.symm)

/-- reading a value without a length check fails improperly exactly when a number is cut -/
theorem Kind.readUnchecked_fails {k : Kind} {b : Bytes} {e : Fail} (h : k.readUnchecked b = .error e) (he : ¬ e.Proper) :
    e = .panic ∧ ∃ w, numberWidth k = some w ∧ b.length < w := by
  cases k
  case u8 =>
    refine ⟨?_, 1, rfl, ?_⟩ <;> (match b with | [] => cases h; simp | _ :: _ => cases h)
  case u16 =>
    refine ⟨?_, 2, rfl, ?_⟩ <;> (match b with | [] => cases h; simp | [_] => cases h; simp | _ :: _ :: _ => cases h)
  case u32 =>
    refine ⟨?_, 4, rfl, ?_⟩ <;>
      (match b with
        | [] => cases h; simp | [_] => cases h; simp | [_, _] => cases h; simp | [_, _, _] => cases h; simp
        | _ :: _ :: _ :: _ :: _ => cases h)
  case str => exact absurd (Kind.read_safe .str b e h) he
  case bin => exact absurd (Kind.read_safe .bin b e h) he
  case var => exact absurd (Kind.read_safe .var b e h) he
  case bool => exact absurd (Kind.read_safe .bool b e h) he
  case qos => exact absurd (Kind.read_safe .qos b e h) he

theorem Kind.readUnchecked_cut {k : Kind} {b : Bytes} {w : Nat} (h : numberWidth k = some w) (hb : b.length < w) :
    k.readUnchecked b = .error .panic := by
  cases k <;> cases h
  · match b with | [] => rfl
  · match b with | [] => rfl | [_] => rfl
  · match b with | [] => rfl | [_] => rfl | [_, _] => rfl | [_, _, _] => rfl

theorem connectArms (p : PropertyType) (h : Spec.Section.connect ∈ carriers p) :
    Entry.select connectSync.entries p = some (armOf .connect p) := by
  revert h; cases p <;> decide

theorem connectTable : TableOk .connect connectSync.entries := by
  intro e he
  simp only [connectSync, connectEntries, List.mem_cons, List.not_mem_nil, or_false] at he
  rcases he with rfl | rfl | rfl | rfl | rfl | rfl | rfl | rfl | rfl <;> decide

theorem connectEntry_fails {P : Props} {t : PropertyType} {en : Entry} {b : Bytes} {e : Fail}
    (hs : Entry.select connectSync.entries t = some en)
    (h : Props.syncReadEntry connectSync P en b = .error e) (he : ¬ e.Proper) :
    e = .panic ∧ P.val t = none ∧ ∃ w, numberWidth t.kind = some w ∧ b.length < w := by
  obtain ⟨hm, rfl⟩ := Props.select_mem hs
  cases en with
  | single p =>
    simp only [Props.syncReadEntry, connectSync, List.not_mem_nil, if_false, if_true] at h
    cases hv : P.val p with
    | some v => rw [hv] at h; simp only [Option.isSome_some, if_true] at h; exact absurd (Safe.de _ _ _ h) he
    | none =>
      rw [hv] at h
      simp only [Option.isSome_none, Bool.false_eq_true, if_false] at h
      rcases Rd.bind_eq_error.1 h with h | ⟨a, b', -, h2⟩
      · obtain ⟨k1, k2⟩ := Kind.readUnchecked_fails h he
        exact ⟨k1, hv, k2⟩
      · cases h2
  | subIdList => exact absurd ((VarInt.read_safe.bind fun _ => Safe.pure _) _ _ h) he
  | user => exact absurd ((readStr_safe.bind fun _ => readStr_safe.bind fun _ => Safe.pure _) _ _ h) he

theorem connectEntry_shrinks {P P' : Props} {t : PropertyType} {en : Entry} {b b' : Bytes}
    (hs : Entry.select connectSync.entries t = some en)
    (h : Props.syncReadEntry connectSync P en b = .ok (P', b')) : b'.length ≤ b.length := by
  obtain ⟨i, bs, rfl, -⟩ := syncReadEntry_ok connectTable hs h
  simp

theorem connectLoop_fails : ∀ (fuel : Nat) (P : Props) (b : Bytes) (e : Fail), b.length < fuel →
    Props.syncLoop connectSync fuel P b = .error e → ¬ e.Proper →
    e = .panic ∧ ∃ good p cut items w, b = good ++ propertyId p :: cut ∧ ItemsBytes items good ∧
      AllFreshFor .connect (fun _ => False) P items ∧
      (∀ i ∈ items, Spec.Section.connect ∈ carriers i.type ∧ i.type ≠ p) ∧
      Spec.Section.connect ∈ carriers p ∧ P.val p = none ∧ numberWidth p.kind = some w ∧ cut.length < w := by
  intro fuel
  induction fuel with
  | zero => intro P b e h; omega
  | succ fuel ih =>
    intro P b e hb h he
    rw [Props.syncLoop] at h
    rcases Rd.bind_eq_error.1 h with h | ⟨t, b1, h1, h2⟩
    · exact absurd (PropertyType.read_safe _ _ h) he
    have l1 := PropertyType.read_eats _ _ _ h1
    obtain ⟨x, b2, g1, g2⟩ := Rd.bind_eq_ok.1
      (afterLen (c := fun n => n = 0) (f := fun _ => DeErr.insufficientData 0 1) h1)
    obtain ⟨g3, rfl⟩ := lift_ok_inv g2
    have hbx := getU8_ok g1
    have hx : x = propertyId t := by rw [propertyId_eq]; exact (PropertyType.toU8_fromU8 g3).symm
    subst hx
    cases hs : Entry.select connectSync.entries t with
    | none => rw [hs] at h2; exact absurd (Safe.de _ _ _ h2) he
    | some en =>
      rw [hs] at h2
      have hc : Spec.Section.connect ∈ carriers t := connectTable.carriers hs (fun h => (by cases h.1))
      rcases Rd.bind_eq_error.1 h2 with h2 | ⟨P', b3, h3, h4⟩
      · obtain ⟨k1, k2, w, k3, k4⟩ := connectEntry_fails hs h2 he
        exact ⟨k1, [], t, b1, [], w, hbx, .nil, trivial, by simp, hc, k2, k3, k4⟩
      · have l3 := connectEntry_shrinks hs h3
        obtain ⟨i, bs, rfl, hit, hib, rfl, hf, -⟩ := syncReadEntry_ok connectTable hs h3
        have hf := hf (by simp [connectSync])
        rcases Rd.bind_eq_error.1 h4 with h4 | ⟨n, b4, h5, h6⟩
        · cases h4
        cases h5
        simp only [Rd.ite_apply] at h6
        split at h6
        · cases h6
        obtain ⟨k0, good, p, cut, items, w, rfl, k1, k2, k3, k4, k5, k6, k7⟩ := ih _ _ _ (by omega) h6 he
        have hne : i.type ≠ p := by
          rintro rfl
          have hr : repeatable .connect i.type = false := by
            cases hk : i.type <;> rw [hk] at k4 k6 <;> first | rfl | exact absurd k6 (by simp [numberWidth])
          obtain ⟨v, -, e2⟩ := putItem_val_self (P := P) hr
          rw [e2] at k5; cases k5
        refine ⟨k0, propertyId t :: (bs ++ good), p, cut, i :: items, w, by rw [hbx]; simp, ?_, ⟨fun _ => hf, k2⟩, ?_, k4, ?_, k6, k7⟩
        · exact ItemsBytes.cons hib k1
        · intro j hj
          rcases List.mem_cons.1 hj with rfl | hj
          · exact ⟨by rw [hit]; exact hc, hne⟩
          · exact k3 j hj
        · rw [putItem_val_inv hne] at k5; exact k5

theorem connectLoop_cut {p : PropertyType} {cut : Bytes} {w : Nat} (hc : Spec.Section.connect ∈ carriers p)
    (hw : numberWidth p.kind = some w) (hl : cut.length < w) {items : List WireItem} {good : Bytes} (h : ItemsBytes items good) :
    ∀ (P : Props) (fuel : Nat), AllFreshFor .connect (fun _ => False) P items →
    (∀ i ∈ items, Spec.Section.connect ∈ carriers i.type ∧ i.type ≠ p) → P.val p = none → good.length < fuel →
    Props.syncLoop connectSync fuel P (good ++ propertyId p :: cut) = .error .panic := by
  have hp : armOf .connect p = .single p := by
    cases p <;> first | rfl | exact absurd hw (by simp [numberWidth])
  induction h with
  | nil =>
    intro P fuel _ _ hv hfu
    cases fuel with
    | zero => omega
    | succ fuel =>
      rw [List.nil_append, Props.syncLoop, propertyId_eq, Rd.bind_ok (PropertyType.read_toU8 _ _)]
      simp only [connectArms p hc, hp]
      apply Rd.bind_eq_error.2
      left
      simp only [Props.syncReadEntry, connectSync, List.not_mem_nil, if_false, if_true, hv, Option.isSome_none,
        Bool.false_eq_true]
      exact Rd.bind_eq_error.2 (.inl (Kind.readUnchecked_cut hw hl))
  | @cons i is bs cs hi his ih =>
    intro P fuel hf hm hv hfu
    obtain ⟨vs, rfl, e⟩ := syncReadEntry_put (sp := connectSync) hi (by simp [connectSync]) (hf.1 (fun h => h)) (cs ++ propertyId p :: cut)
    cases fuel with
    | zero => omega
    | succ fuel =>
      rw [List.append_assoc, List.cons_append, Props.syncLoop, propertyId_eq, Rd.bind_ok (PropertyType.read_toU8 _ _)]
      simp only [connectArms _ (hm i (by simp)).1]
      rw [Rd.bind_ok e]
      simp only [Rd.bufLen_bind, Rd.ite_apply]
      rw [if_neg (by simp)]
      refine ih _ _ hf.2 (fun j hj => hm j (by simp [hj])) ?_ (by simp at hfu; omega)
      rw [putItem_val_inv (hm i (by simp)).2]; exact hv

theorem connectSection_fails {b : Bytes} {e : Fail} (h : Props.syncRead connectSync b = .error e) (he : ¬ e.Proper) :
    e = .panic ∧ CutProperties b := by
  rw [Props.syncRead] at h
  rcases Rd.bind_eq_error.1 h with h | ⟨⟨len, n⟩, b1, h1, h2⟩
  · exact absurd (VarInt.read_safe _ _ h) he
  obtain ⟨lb, rfl, hv, rfl, -⟩ := VarInt.read_ok h1
  simp only [Rd.ite_apply, Rd.bufLen_bind] at h2
  split at h2
  · cases h2
  split at h2
  · exact absurd (Safe.de _ _ _ h2) he
  rename_i hav
  rw [if_pos (show connectSync.split = true from rfl)] at h2
  rcases Rd.bind_eq_error.1 h2 with h2 | ⟨data, b3, h5, h6⟩
  · exact absurd (splitTo_safeAt (by omega) _ h2) he
  obtain ⟨rfl, hl⟩ := splitTo_ok h5
  rcases Rd.bind_eq_error.1 h6 with h6 | ⟨P, b2, -, h4⟩
  · simp only [Props.onSlice] at h6
    split at h6
    · cases h6
    rename_i e' h7
    cases h6
    obtain ⟨k0, good, p, cut, items, w, rfl, k1, k2, k3, k4, -, k6, k7⟩ := connectLoop_fails _ _ _ _ (by omega) h7 he
    exact ⟨k0, lb, good, p, cut, b3, items, w, by simp, hv, hl.symm, k1, (atMostOnce_of (fun _ h => h.elim) k2).1, k3, k4, k6, k7⟩
  · simp only [Rd.ite_apply] at h4
    split at h4
    · exact absurd (Safe.de _ _ _ h4) he
    · cases h4

theorem connectSection_cut {b : Bytes} (h : CutProperties b) : Props.syncRead connectSync b = .error .panic := by
  obtain ⟨lb, good, p, cut, more, items, w, rfl, hv, hl, k1, k2, k3, k4, k5, k6⟩ := h
  rw [List.append_assoc, Props.syncRead, Rd.bind_ok (VarInt.isVbi_reads hv _).1]
  simp only [Rd.ite_apply, Rd.bufLen_bind]
  rw [if_neg (by rw [hl]; simp), if_neg (by rw [hl]; simp), if_pos (show connectSync.split = true from rfl)]
  rw [hl, Rd.bind_ok (splitTo_append _ _)]
  refine Rd.bind_eq_error.2 (.inl ?_)
  simp only [Props.onSlice]
  rw [connectLoop_cut k4 k5 k6 k1 .empty _ (fresh_of k2 (fun _ _ _ => rfl)) k3 rfl (by simp; omega)]

theorem LastWill.read_safe (q : QoS) (r : Bool) : Safe (LastWill.read q r) :=
  (Props.syncRead_safe rfl).bind fun _ => readStr_safe.bind fun _ => readBin_safe.bind fun _ => Safe.pure _

theorem readProtocolVersion_ok {b rest : Bytes} {u : Unit} (h : readProtocolVersion b = .ok (u, rest)) : b = 5 :: rest := by
  cases b with
  | nil => cases h
  | cons x b =>
    have h : (if x = 3 ∨ x = 4 then Rd.de .unsupportedProtocolVersion
      else if x = 5 then pure () else Rd.de .unknownProtocolVersion : Rd Unit) b = .ok (u, rest) := h
    simp only [Rd.ite_apply] at h
    split at h
    · cases h
    · split at h
      · rename_i h5; cases h; rw [h5]
      · cases h

theorem ConnectFlags.read_safe : Safe ConnectFlags.read := by
  intro b e h
  cases b with
  | nil => cases h; exact Fail.proper_de _
  | cons x b => exact Safe.lift (ConnectFlags.fromU8 x) b e h

theorem ConnectFlags.read_ok {b rest : Bytes} {f : ConnectFlags} (h : ConnectFlags.read b = .ok (f, rest)) :
    ∃ v, b = v :: rest ∧ ConnectFlags.fromU8 v = .ok f := by
  cases b with
  | nil => cases h
  | cons x b =>
    have h : Rd.lift (ConnectFlags.fromU8 x) b = .ok (f, rest) := h
    obtain ⟨h1, rfl⟩ := lift_ok_inv h
    exact ⟨x, rfl, h1⟩

/-- the body of a CONNECT fails improperly exactly where it is cut -/
theorem Connect.read_fails {b : Bytes} {e : Fail} (h : Connect.read b = .error e) (he : ¬ e.Proper) :
    e = .panic ∧ ∃ flags tail, b = [0, 4, 77, 81, 84, 84, 5, flags] ++ tail ∧ flags.toNat / 8 % 4 ≠ 3 ∧
      (tail.length < 2 ∨ ∃ x y sec, tail = x :: y :: sec ∧ CutProperties sec) := by
  rw [Connect.read] at h
  rcases Rd.bind_eq_error.1 h with h | ⟨proto, b1, h1, h2⟩
  · exact absurd (readBin_safe _ _ h) he
  obtain ⟨hd, rfl, x0, y0, rfl, hl⟩ := readBin_ok h1
  simp only [Rd.ite_apply] at h2
  split at h2
  · exact absurd (Safe.de _ _ _ h2) he
  rename_i hp
  have hp : proto = Connect.protocolName := Classical.not_not.1 hp
  subst hp
  have hx0 : x0 = 0 := UInt8.toNat_inj.1 (by
    have := y0.toNat_lt
    simp only [Connect.protocolName, List.length_cons, List.length_nil] at hl
    show x0.toNat = 0
    omega)
  subst hx0
  have hy0 : y0 = 4 := UInt8.toNat_inj.1 (by
    simp only [Connect.protocolName, List.length_cons, List.length_nil] at hl
    show y0.toNat = 4
    have : (0 : UInt8).toNat = 0 := rfl
    omega)
  subst hy0
  rcases Rd.bind_eq_error.1 h2 with h2 | ⟨u, b2, h3, h4⟩
  · exact absurd (readProtocolVersion_safe _ _ h2) he
  have e1 := readProtocolVersion_ok h3
  rcases Rd.bind_eq_error.1 h4 with h4 | ⟨flags, b3, h5, h6⟩
  · exact absurd (ConnectFlags.read_safe _ _ h4) he
  obtain ⟨v, rfl, hv⟩ := ConnectFlags.read_ok h5
  have hq := (ConnectFlags.fromU8_iff v).1 ⟨_, hv⟩
  rcases Rd.bind_eq_error.1 h6 with h6 | ⟨k, b4, h7, h8⟩
  · obtain ⟨k0, w, hw, hb⟩ := Kind.readUnchecked_fails (k := .u16) h6 he
    cases hw
    exact ⟨k0, v, b3, by rw [e1]; rfl, hq, .inl hb⟩
  obtain ⟨x, y, rfl, -⟩ := getU16_ok h7
  rcases Rd.bind_eq_error.1 h8 with h8 | ⟨P, b5, h9, h10⟩
  · obtain ⟨k0, hc⟩ := connectSection_fails h8 he
    exact ⟨k0, v, x :: y :: b4, by rw [e1]; rfl, hq, .inr ⟨x, y, b4, rfl, hc⟩⟩
  refine absurd ((readStr_safe.bind fun _ => ?_ : Safe _) _ _ h10) he
  repeat' (first
    | exact Safe.pure _
    | refine Safe.ite ?_ ?_
    | refine Safe.bind readStr_safe fun _ => ?_
    | refine Safe.bind (LastWill.read_safe _ _) fun _ => ?_
    | refine Safe.bind (Safe.pure _) fun _ => ?_)

theorem Connect.read_cut {flags : UInt8} {tail : Bytes} (hq : flags.toNat / 8 % 4 ≠ 3)
    (h : tail.length < 2 ∨ ∃ x y sec, tail = x :: y :: sec ∧ CutProperties sec) :
    Connect.read ([0, 4, 77, 81, 84, 84, 5, flags] ++ tail) = .error .panic := by
  obtain ⟨f, hf⟩ := (ConnectFlags.fromU8_iff flags).2 hq
  have e1 : readBin ([0, 4, 77, 81, 84, 84, 5, flags] ++ tail) = .ok (Connect.protocolName, 5 :: flags :: tail) := by
    have := (ValueBytes.read (k := .bin) (v := Connect.protocolName) (bs := [0, 4, 77, 81, 84, 84]) ⟨0, 4, rfl, rfl⟩
      (5 :: flags :: tail)).1
    exact this
  have e2 : readProtocolVersion (5 :: flags :: tail) = .ok ((), flags :: tail) := rfl
  have e3 : ConnectFlags.read (flags :: tail) = .ok (f, tail) := by
    simp [ConnectFlags.read, Rd.bind_apply, hf]
  rw [Connect.read, Rd.bind_ok e1]
  simp only [Rd.ite_apply]
  rw [if_neg (by simp), Rd.bind_ok e2, Rd.bind_ok e3]
  rcases h with h | ⟨x, y, sec, rfl, h⟩
  · exact Rd.bind_eq_error.2 (.inl (Kind.readUnchecked_cut (k := .u16) rfl h))
  · have e4 : getU16 (x :: y :: sec) = .ok (mkU16 x y, sec) := rfl
    rw [Rd.bind_ok e4]
    exact Rd.bind_eq_error.2 (.inl (connectSection_cut h))

end Mqrstt
