import Verif.Proof.Frame
/-! # The sizes announced by the writers, for every packet (well-formed or not) -/

namespace Mqrstt
open Spec

theorem VarInt.write_isVbi {n : Nat} {bs : Bytes} (h : VarInt.write n = .ok bs) :
    IsVbi bs ∧ vbiValue bs = n := by
  have hn := (VarInt.write_ok_iff _ _ h).1
  obtain ⟨init, last, e, -, h1, h2, h3, h4, -⟩ := VarInt.write_spec n hn
  rw [h] at e
  cases e
  exact ⟨⟨init, last, rfl, h1, h2, h3⟩, h4⟩

theorem Kind.write_length (k : Kind) (v : k.T) {bs : Bytes} (h : k.write v = .ok bs) :
    bs.length = k.wireLen v := by
  cases k with
  | var => exact (VarInt.write_ok_iff _ _ h).2.1
  | _ => simp only [Kind.write, Except.ok.injEq] at h; subst h; simp [Kind.wireLen, strWireLen, binWireLen]

theorem Kind.asyncWrite_length (k : Kind) (v : k.T) {bs : Bytes} {n : Nat}
    (h : k.asyncWrite v = .ok (bs, n)) : bs.length = k.wireLen v ∧ n = bs.length := by
  cases k with
  | var =>
    have := (VarInt.asyncWrite_ok_iff _ _ _).1 h
    have h2 := (VarInt.write_ok_iff _ _ this.1).2.1
    exact ⟨h2, by rw [this.2]⟩
  | _ =>
    simp only [Kind.asyncWrite, Except.ok.injEq, Prod.mk.injEq] at h
    obtain ⟨rfl, rfl⟩ := h
    simp [Kind.wireLen, strWireLen, binWireLen]
    try omega

namespace Props

theorem syncItem_inv {p : PropertyType} {v : Wr} {bs : Bytes} (h : syncItem p v = .ok bs) :
    ∃ b, v = .ok b ∧ bs = p.toU8 :: b := by
  obtain ⟨a, b, e1, e2, rfl⟩ := Wr.append_eq_ok.1 h
  cases e1
  exact ⟨b, e2, rfl⟩

theorem asyncItem_inv {p : PropertyType} {v : AWr} {bs : Bytes} {n : Nat}
    (h : asyncItem p v = .ok (bs, n)) : ∃ b m, v = .ok (b, m) ∧ bs = p.toU8 :: b ∧ n = 1 + m := by
  obtain ⟨a, k, b, m, e1, e2, rfl, rfl⟩ := AWr.append_eq_ok.1 h
  cases e1
  exact ⟨b, m, e2, rfl, rfl⟩

theorem syncConcat_length {α : Type} (l : List α) (f : α → Wr) (g : α → Nat)
    (h : ∀ x ∈ l, ∀ bs, f x = .ok bs → bs.length = g x) {bs : Bytes}
    (hw : syncConcat (l.map f) = .ok bs) : bs.length = (l.map g).sum := by
  induction l generalizing bs with
  | nil => simp [syncConcat] at hw; subst hw; rfl
  | cons x l ih =>
    obtain ⟨a, b, e1, e2, rfl⟩ := Wr.append_eq_ok.1 (show f x ++ syncConcat (l.map f) = _ from hw)
    rw [List.length_append, h x (by simp) a e1, ih (fun y hy => h y (by simp [hy])) e2]
    simp

theorem asyncConcat_length {α : Type} (l : List α) (f : α → AWr) (g : α → Nat)
    (h : ∀ x ∈ l, ∀ bs n, f x = .ok (bs, n) → bs.length = g x) {bs : Bytes} {n : Nat}
    (hw : asyncConcat (l.map f) = .ok (bs, n)) : bs.length = (l.map g).sum := by
  induction l generalizing bs n with
  | nil => simp [asyncConcat] at hw; obtain ⟨rfl, rfl⟩ := hw; rfl
  | cons x l ih =>
    obtain ⟨a, k, b, m, e1, e2, rfl, rfl⟩ :=
      AWr.append_eq_ok.1 (show f x ++ asyncConcat (l.map f) = _ from hw)
    rw [List.length_append, h x (by simp) a k e1, ih (fun y hy => h y (by simp [hy])) e2]
    simp

theorem asyncConcat_count {α : Type} (l : List α) (f : α → AWr)
    (h : ∀ x ∈ l, ∀ bs n, f x = .ok (bs, n) → n = bs.length) {bs : Bytes} {n : Nat}
    (hw : asyncConcat (l.map f) = .ok (bs, n)) : n = bs.length := by
  induction l generalizing bs n with
  | nil => simp [asyncConcat] at hw; obtain ⟨rfl, rfl⟩ := hw; rfl
  | cons x l ih =>
    obtain ⟨a, k, b, m, e1, e2, rfl, rfl⟩ :=
      AWr.append_eq_ok.1 (show f x ++ asyncConcat (l.map f) = _ from hw)
    rw [List.length_append, h x (by simp) a k e1, ih (fun y hy => h y (by simp [hy])) e2]

theorem syncWriteEntry_length {mode : AuthMode} {P : Props} {e : Entry} {bs : Bytes}
    (ha : P.val .authenticationData ≠ some [])
    (h : P.syncWriteEntry mode e = .ok bs) : bs.length = P.entryWireLen e := by
  cases e with
  | subIdList =>
    refine syncConcat_length _ _ _ (fun i _ bs hb => ?_) h
    obtain ⟨b, e, rfl⟩ := syncItem_inv hb
    simp [(VarInt.write_ok_iff _ _ e).2.1]; omega
  | user =>
    refine syncConcat_length _ _ _ (fun i _ bs hb => ?_) h
    obtain ⟨k, v⟩ := i
    obtain ⟨b, e, rfl⟩ := syncItem_inv hb
    obtain ⟨x, y, e1, e2, rfl⟩ := Wr.append_eq_ok.1 e
    have h1 := Kind.write_length _ _ e1
    have h2 := Kind.write_length _ _ e2
    simp only [Kind.wireLen] at h1 h2
    simp [h1, h2]; omega
  | single p =>
    by_cases hp : p = .authenticationData
    · subst hp
      simp only [syncWriteEntry, entryWireLen] at h ⊢
      cases hd : P.val .authenticationData with
      | none => simp [hd] at h ⊢; subst h; rfl
      | some d =>
        rw [hd] at h
        have hne : d ≠ [] := fun e => ha (by rw [hd, e])
        simp only at h ⊢
        cases mode with
        | skip =>
          simp only at h
          split at h
          · obtain ⟨b, e, rfl⟩ := syncItem_inv h
            have := Kind.write_length _ _ e
            simp only [Kind.wireLen] at this
            rename_i hw
            simp [hw, this]; omega
          · rename_i hw
            cases h
            simp [hw]
        | strict =>
          simp only at h
          split at h
          · cases h
          · rename_i hm
            obtain ⟨b, e, rfl⟩ := syncItem_inv h
            have := Kind.write_length _ _ e
            simp only [Kind.wireLen] at this
            have hw : P.authDataWritten = true := by
              simp only [authDataWritten, hd]
              cases hM : P.val .authenticationMethod <;> simp [hM, hne] at hm ⊢
            simp [hw, this]; omega
    · have h1 : P.syncWriteEntry mode (.single p) =
          match P.val p with | some v => syncItem p (p.kind.write v) | none => .ok [] := by
        cases p <;> first | rfl | exact absurd rfl hp
      have h2 : P.entryWireLen (.single p) =
          match P.val p with | some v => 1 + p.kind.wireLen v | none => 0 := by
        cases p <;> first | rfl | exact absurd rfl ‹_›
      rw [h1] at h
      rw [h2]
      cases hv : P.val p with
      | none => rw [hv] at h; cases h; rfl
      | some v =>
        rw [hv] at h
        obtain ⟨b, e, rfl⟩ := syncItem_inv h
        simp [Kind.write_length _ _ e]; omega

/-- the generic arm of the streaming property writer -/
theorem asyncWriteEntry_generic (P : Props) (p : PropertyType) (h1 : p ≠ .assignedClientIdentifier)
    (h2 : p ≠ .serverReference) (h3 : p ≠ .authenticationData) :
    P.asyncWriteEntry (.single p) =
      match P.val p with | some v => asyncItem p (p.kind.asyncWrite v) | none => .ok ([], 0) := by
  cases p <;> first | rfl | exact absurd rfl ‹_›

theorem asyncWriteEntry_length {P : Props} {e : Entry} {bs : Bytes} {n : Nat}
    (hc : P.val .assignedClientIdentifier = none)
    (h : P.asyncWriteEntry e = .ok (bs, n)) : bs.length = P.entryWireLen e := by
  cases e with
  | subIdList =>
    refine asyncConcat_length _ _ _ (fun i _ bs n hb => ?_) h
    obtain ⟨b, m, e, rfl, rfl⟩ := asyncItem_inv hb
    have := (VarInt.asyncWrite_ok_iff _ _ _).1 e
    simp [(VarInt.write_ok_iff _ _ this.1).2.1]; omega
  | user =>
    refine asyncConcat_length _ _ _ (fun i _ bs n hb => ?_) h
    obtain ⟨k, v⟩ := i
    obtain ⟨b, m, e, rfl, rfl⟩ := asyncItem_inv hb
    obtain ⟨x, nx, y, ny, e1, e2, rfl, rfl⟩ := AWr.append_eq_ok.1 e
    have h1 := (Kind.asyncWrite_length _ _ e1).1
    have h2 := (Kind.asyncWrite_length _ _ e2).1
    simp only [Kind.wireLen] at h1 h2
    simp [h1, h2]; omega
  | single p =>
    by_cases hp : p = .assignedClientIdentifier
    · subst hp
      simp only [asyncWriteEntry] at h
      cases h
      simp [entryWireLen, hc]
    by_cases hs : p = .serverReference
    · subst hs
      simp only [asyncWriteEntry, entryWireLen] at h ⊢
      cases hv : P.val .serverReference with
      | none => simp [hv] at h ⊢; exact h.1
      | some v =>
        simp only [hv, Except.ok.injEq, Prod.mk.injEq] at h
        rw [← h.1]
        simp [Kind.wireLen, strWireLen]; omega
    by_cases hd : p = .authenticationData
    · subst hd
      simp only [asyncWriteEntry, entryWireLen] at h ⊢
      cases hv : P.val .authenticationData with
      | none => simp [hv] at h ⊢; exact h.1
      | some v =>
        simp only [hv] at h ⊢
        split at h
        · obtain ⟨b, m, e, rfl, rfl⟩ := asyncItem_inv h
          have := (Kind.asyncWrite_length _ _ e).1
          simp only [Kind.wireLen] at this
          rename_i hw
          simp [hw, this]; omega
        · rename_i hw
          cases h
          simp [hw]
    · rw [asyncWriteEntry_generic P p hp hs hd] at h
      have h2 : P.entryWireLen (.single p) =
          match P.val p with | some v => 1 + p.kind.wireLen v | none => 0 := by
        cases p <;> first | rfl | exact absurd rfl ‹_›
      rw [h2]
      cases hv : P.val p with
      | none => rw [hv] at h; cases h; rfl
      | some v =>
        rw [hv] at h
        obtain ⟨b, m, e, rfl, rfl⟩ := asyncItem_inv h
        simp [(Kind.asyncWrite_length _ _ e).1]; omega

theorem asyncWriteEntry_count {P : Props} {e : Entry} {bs : Bytes} {n : Nat}
    (hc : P.val .serverReference = none)
    (h : P.asyncWriteEntry e = .ok (bs, n)) : n = bs.length := by
  cases e with
  | subIdList =>
    refine asyncConcat_count _ _ (fun i _ bs n hb => ?_) h
    obtain ⟨b, m, e, rfl, rfl⟩ := asyncItem_inv hb
    have := (VarInt.asyncWrite_ok_iff _ _ _).1 e
    simp [this.2]; omega
  | user =>
    refine asyncConcat_count _ _ (fun i _ bs n hb => ?_) h
    obtain ⟨k, v⟩ := i
    obtain ⟨b, m, e, rfl, rfl⟩ := asyncItem_inv hb
    obtain ⟨x, nx, y, ny, e1, e2, rfl, rfl⟩ := AWr.append_eq_ok.1 e
    have h1 := (Kind.asyncWrite_length _ _ e1).2
    have h2 := (Kind.asyncWrite_length _ _ e2).2
    simp [h1, h2]; omega
  | single p =>
    by_cases hp : p = .assignedClientIdentifier
    · subst hp
      simp only [asyncWriteEntry] at h
      cases h
      rfl
    by_cases hs : p = .serverReference
    · subst hs
      simp only [asyncWriteEntry, hc] at h
      cases h
      rfl
    by_cases hd : p = .authenticationData
    · subst hd
      simp only [asyncWriteEntry] at h
      cases hv : P.val .authenticationData with
      | none => simp [hv] at h; rw [h.1, ← h.2]; rfl
      | some v =>
        simp only [hv] at h
        split at h
        · obtain ⟨b, m, e, rfl, rfl⟩ := asyncItem_inv h
          have := (Kind.asyncWrite_length _ _ e).2
          simp [this]; omega
        · cases h; rfl
    · rw [asyncWriteEntry_generic P p hp hs hd] at h
      cases hv : P.val p with
      | none => rw [hv] at h; cases h; rfl
      | some v =>
        rw [hv] at h
        obtain ⟨b, m, e, rfl, rfl⟩ := asyncItem_inv h
        simp [(Kind.asyncWrite_length _ _ e).2]; omega

/-- what a buffered property writer produces -/
theorem syncWrite_sizes {es order : List Entry} {mode : AuthMode} {P : Props} {bs : Bytes}
    (ho : order.Perm es) (ha : AuthDataNonempty P) (h : P.syncWrite es order mode = .ok bs) :
    ∃ len items, bs = len ++ items ∧ VarInt.write (P.wireLen es) = .ok len ∧
      items.length = P.wireLen es := by
  obtain ⟨a, b, e1, e2, rfl⟩ := Wr.append_eq_ok.1 h
  refine ⟨a, b, rfl, e1, ?_⟩
  rw [syncConcat_length order _ P.entryWireLen (fun e _ bs he => syncWriteEntry_length ha he) e2]
  exact Props.wireLen_perm ho P

theorem asyncWrite_sizes {es : List Entry} {P : Props} {bs : Bytes} {n : Nat}
    (hc : P.val .assignedClientIdentifier = none) (h : P.asyncWrite es = .ok (bs, n)) :
    ∃ len items, bs = len ++ items ∧ VarInt.write (P.wireLen es) = .ok len ∧
      items.length = P.wireLen es ∧ (P.val .serverReference = none → n = bs.length) := by
  obtain ⟨a, k, b, m, e1, e2, rfl, rfl⟩ := AWr.append_eq_ok.1 h
  have hw := (VarInt.asyncWrite_ok_iff _ _ _).1 e1
  refine ⟨a, b, rfl, hw.1, ?_, ?_⟩
  · exact asyncConcat_length es _ P.entryWireLen (fun e _ bs n he => asyncWriteEntry_length hc he) e2
  · intro hs
    rw [List.length_append, hw.2,
      asyncConcat_count es _ (fun e _ bs n he => asyncWriteEntry_count hs he) e2]

theorem syncWrite_length {es order : List Entry} {mode : AuthMode} {P : Props} {bs : Bytes}
    (ho : order.Perm es) (ha : AuthDataNonempty P) (h : P.syncWrite es order mode = .ok bs) :
    bs.length = VarInt.len (P.wireLen es) + P.wireLen es := by
  obtain ⟨len, items, rfl, hl, hi⟩ := syncWrite_sizes ho ha h
  rw [List.length_append, hi, (VarInt.write_ok_iff _ _ hl).2.1]

theorem asyncWrite_length {es : List Entry} {P : Props} {bs : Bytes} {n : Nat}
    (hc : P.val .assignedClientIdentifier = none) (h : P.asyncWrite es = .ok (bs, n)) :
    bs.length = VarInt.len (P.wireLen es) + P.wireLen es ∧
      (P.val .serverReference = none → n = bs.length) := by
  obtain ⟨len, items, rfl, hl, hi, hn⟩ := asyncWrite_sizes hc h
  exact ⟨by rw [List.length_append, hi, (VarInt.write_ok_iff _ _ hl).2.1], hn⟩

end Props

/-! ## Bodies -/

theorem ack_write_length {a : Ack} {bs : Bytes} (ha : AuthDataNonempty a.props)
    (h : a.write = .ok bs) : bs.length = a.wireLen := by
  obtain ⟨x, y, e1, e2, rfl⟩ := Wr.append_eq_ok.1 h
  cases e1
  unfold Ack.wireLen
  split at e2
  · cases e2; rename_i hc; simp [hc]
  · split at e2
    · cases e2
      rename_i h1 h2
      simp [h2] at h1
      simp [h1, h2]
    · obtain ⟨u, v, e3, e4, rfl⟩ := Wr.append_eq_ok.1 e2
      cases e3
      have := Props.syncWrite_length (.refl _) ha e4
      rename_i h1 h2
      simp [h2, this]; omega

theorem codesAck_write_length {es : List Entry} {a : CodesAck} {bs : Bytes}
    (ha : AuthDataNonempty a.props) (h : a.write es = .ok bs) : bs.length = a.wireLen es := by
  obtain ⟨x, y, e1, e2, rfl⟩ := Wr.append_eq_ok.1 h
  obtain ⟨u, v, e3, e4, rfl⟩ := Wr.append_eq_ok.1 e1
  cases e2
  cases e3
  have := Props.syncWrite_length (.refl _) ha e4
  simp [this, CodesAck.wireLen]; omega

theorem Packet.bodyWrite_length {p : Packet} {bs : Bytes}
    (ha' : ¬ EmptyAuthData p) (h : p.bodyWrite = .ok bs) : bs.length = p.bodyWireLen := by
  have ha : ∀ P ∈ propSets p, AuthDataNonempty P := fun P hP e => ha' ⟨P, hP, e⟩
  cases p with
  | connect c =>
    simp only [Packet.bodyWrite, Connect.write] at h
    obtain ⟨_, _, g1, e6, rfl⟩ := Wr.append_eq_ok.1 h
    obtain ⟨_, _, g2, e5, rfl⟩ := Wr.append_eq_ok.1 g1
    obtain ⟨_, wb, g3, e4, rfl⟩ := Wr.append_eq_ok.1 g2
    obtain ⟨_, _, g4, e3, rfl⟩ := Wr.append_eq_ok.1 g3
    obtain ⟨_, _, e1, e2, rfl⟩ := Wr.append_eq_ok.1 g4
    cases e1; cases e3; cases e5; cases e6
    have h1 := Props.syncWrite_length (.refl _) (ha _ (by simp [propSets])) e2
    have hw : wb.length = match c.lastWill with | some w => w.wireLen | none => 0 := by
      cases hw : c.lastWill with
      | none => rw [hw] at e4; cases e4; rfl
      | some w =>
        simp only [hw, LastWill.write] at e4
        obtain ⟨_, _, g5, e6, rfl⟩ := Wr.append_eq_ok.1 e4
        obtain ⟨_, _, e1, e2, rfl⟩ := Wr.append_eq_ok.1 g5
        cases e6; cases e2
        have := Props.syncWrite_length (.refl _) (ha _ (by simp [propSets, hw])) e1
        simp [this, LastWill.wireLen, strWireLen, binWireLen]; omega
    simp only [List.length_append, h1, hw, optStrBytes_length, Packet.bodyWireLen, Connect.wireLen,
      binBytes_length, strBytes_length, u16Bytes_length, List.length_singleton]
    cases c.lastWill <;> cases c.username <;> cases c.password <;>
      simp only [strWireLen, binWireLen] <;> omega
  | connAck c =>
    simp only [Packet.bodyWrite, ConnAck.write] at h
    obtain ⟨_, _, g6, e2, rfl⟩ := Wr.append_eq_ok.1 h
    obtain ⟨_, _, e3, e4, rfl⟩ := Wr.append_eq_ok.1 g6
    cases e3; cases e4
    have := Props.syncWrite_length (.refl _) (ha _ (by simp [propSets])) e2
    simp [this, Packet.bodyWireLen, ConnAck.wireLen]; omega
  | publish p =>
    simp only [Packet.bodyWrite, Publish.write] at h
    obtain ⟨_, _, g7, e1, rfl⟩ := Wr.append_eq_ok.1 h
    obtain ⟨_, _, g8, e2, rfl⟩ := Wr.append_eq_ok.1 g7
    obtain ⟨_, _, e3, e4, rfl⟩ := Wr.append_eq_ok.1 g8
    cases e1; cases e3; cases e4
    have := Props.syncWrite_length publishOrder_perm (ha _ (by simp [propSets])) e2
    cases hp : p.pkid <;>
      simp [this, Packet.bodyWireLen, Publish.wireLen, strWireLen, Publish.pkidBytes, hp] <;> omega
  | pubAck a => exact ack_write_length (ha _ (by simp [propSets])) h
  | pubRec a => exact ack_write_length (ha _ (by simp [propSets])) h
  | pubRel a => exact ack_write_length (ha _ (by simp [propSets])) h
  | pubComp a => exact ack_write_length (ha _ (by simp [propSets])) h
  | subscribe s =>
    simp only [Packet.bodyWrite, Subscribe.write] at h
    obtain ⟨_, _, g9, e2, rfl⟩ := Wr.append_eq_ok.1 h
    obtain ⟨_, _, e3, e4, rfl⟩ := Wr.append_eq_ok.1 g9
    cases e2; cases e3
    have := Props.syncWrite_length (.refl _) (ha _ (by simp [propSets])) e4
    simp only [List.length_append, this, u16Bytes_length, topicBytes_length, Packet.bodyWireLen,
      Subscribe.wireLen]
    omega
  | subAck a => exact codesAck_write_length (ha _ (by simp [propSets])) h
  | unsubscribe s =>
    simp only [Packet.bodyWrite, Unsubscribe.write] at h
    obtain ⟨_, _, g10, e2, rfl⟩ := Wr.append_eq_ok.1 h
    obtain ⟨_, _, e3, e4, rfl⟩ := Wr.append_eq_ok.1 g10
    cases e2; cases e3
    have := Props.syncWrite_length (.refl _) (ha _ (by simp [propSets])) e4
    simp only [List.length_append, this, u16Bytes_length, strsBytes_length, Packet.bodyWireLen,
      Unsubscribe.wireLen]
    omega
  | unsubAck a => exact codesAck_write_length (ha _ (by simp [propSets])) h
  | pingReq => cases h; rfl
  | pingResp => cases h; rfl
  | disconnect d =>
    simp only [Packet.bodyWrite, Disconnect.write, Packet.bodyWireLen, Disconnect.wireLen] at h ⊢
    split at h
    · rename_i hl
      obtain ⟨_, _, e1, e2, rfl⟩ := Wr.append_eq_ok.1 h
      cases e1
      have := Props.syncWrite_length (.refl _) (ha _ (by simp [propSets])) e2
      rw [if_pos hl]
      simp [this]; omega
    · rename_i hl
      cases h
      rw [if_neg hl]; rfl
  | auth a =>
    obtain ⟨_, _, e1, e2, rfl⟩ := Wr.append_eq_ok.1 h
    cases e1
    have := Props.syncWrite_length (.refl _) (ha _ (by simp [propSets])) e2
    simp [this, Packet.bodyWireLen, Auth.wireLen]; omega

theorem ack_asyncWrite_length {a : Ack} {bs : Bytes} {n : Nat}
    (hc : a.props.val .assignedClientIdentifier = none)
    (h : a.asyncWrite = .ok (bs, n)) :
    bs.length = a.wireLen ∧ (a.props.val .serverReference = none → n = bs.length) := by
  obtain ⟨x, nx, y, ny, e1, e2, rfl, rfl⟩ := AWr.append_eq_ok.1 h
  cases e1
  unfold Ack.wireLen
  split at e2
  · cases e2; rename_i hc; simp [hc]
  · split at e2
    · cases e2
      rename_i h1 h2
      simp [h2] at h1
      simp [h1, h2]
    · obtain ⟨u, nu, v, nv, e3, e4, rfl, rfl⟩ := AWr.append_eq_ok.1 e2
      cases e3
      obtain ⟨h3, h4⟩ := Props.asyncWrite_length hc e4
      rename_i h1 h2
      refine ⟨by simp [h2, h3]; omega, fun hs => ?_⟩
      have := h4 hs
      simp [this]; omega

theorem codesAck_asyncWrite_length {es : List Entry} {a : CodesAck} {bs : Bytes} {n : Nat}
    (hc : a.props.val .assignedClientIdentifier = none) (h : a.asyncWrite es = .ok (bs, n)) :
    bs.length = a.wireLen es ∧ (a.props.val .serverReference = none → n = bs.length) := by
  obtain ⟨x, nx, y, ny, e1, e2, rfl, rfl⟩ := AWr.append_eq_ok.1 h
  obtain ⟨u, nu, v, nv, e3, e4, rfl, rfl⟩ := AWr.append_eq_ok.1 e1
  cases e2
  cases e3
  obtain ⟨h3, h4⟩ := Props.asyncWrite_length hc e4
  refine ⟨by simp [h3, CodesAck.wireLen]; omega, fun hs => ?_⟩
  have := h4 hs
  simp [this]; omega

theorem Packet.bodyAsyncWrite_length {p : Packet} {bs : Bytes} {n : Nat}
    (ha' : ¬ HasAssignedId p) (h : p.bodyAsyncWrite = .ok (bs, n)) :
    bs.length = p.bodyWireLen ∧ (¬ HasServerRef p → n = bs.length) := by
  have ha : ∀ P ∈ propSets p, P.val .assignedClientIdentifier = none := by
    simpa [HasAssignedId] using ha'
  have hsr : ¬ HasServerRef p → ∀ P ∈ propSets p, P.val .serverReference = none := by
    simp [HasServerRef]
  cases p with
  | connect c =>
    simp only [Packet.bodyAsyncWrite, Connect.asyncWrite] at h
    obtain ⟨_, _, _, _, g11, e6, rfl, rfl⟩ := AWr.append_eq_ok.1 h
    obtain ⟨_, _, _, _, g12, e5, rfl, rfl⟩ := AWr.append_eq_ok.1 g11
    obtain ⟨_, _, wb, wn, g13, e4, rfl, rfl⟩ := AWr.append_eq_ok.1 g12
    obtain ⟨_, _, _, _, g14, e3, rfl, rfl⟩ := AWr.append_eq_ok.1 g13
    obtain ⟨_, _, _, _, e1, e2, rfl, rfl⟩ := AWr.append_eq_ok.1 g14
    cases e1; cases e3; cases e5; cases e6
    obtain ⟨h1, h2⟩ := Props.asyncWrite_length (ha _ (by simp [propSets])) e2
    have hw : wb.length = (match c.lastWill with | some w => w.wireLen | none => 0) ∧
        (¬ HasServerRef (.connect c) → wn = wb.length) := by
      cases hw : c.lastWill with
      | none => rw [hw] at e4; cases e4; simp
      | some w =>
        simp only [hw, LastWill.asyncWrite] at e4
        obtain ⟨_, _, _, _, g15, e6, rfl, rfl⟩ := AWr.append_eq_ok.1 e4
        obtain ⟨_, _, _, _, e1, e2, rfl, rfl⟩ := AWr.append_eq_ok.1 g15
        cases e6; cases e2
        obtain ⟨h3, h4⟩ := Props.asyncWrite_length (ha _ (by simp [propSets, hw])) e1
        refine ⟨by simp [h3, LastWill.wireLen, strWireLen, binWireLen]; omega, fun hs => ?_⟩
        have := h4 (hsr hs _ (by simp [propSets, hw]))
        simp [this, Str.length]; omega
    constructor
    · simp only [List.length_append, List.length_cons, h1, hw.1, optStrBytes_length,
        Packet.bodyWireLen, Connect.wireLen,
        strBytes_length, u16Bytes_length]
      cases c.lastWill <;> cases c.username <;> cases c.password <;>
        simp only [strWireLen, binWireLen, Connect.protocolName, List.length_cons, List.length_nil] <;>
        omega
    · intro hs
      have h3 := h2 (hsr hs _ (by simp [propSets]))
      have h4 := hw.2 hs
      simp [h3, h4, optStrCount_eq, Connect.protocolName, Str.length]; omega
  | connAck c =>
    simp only [Packet.bodyAsyncWrite, ConnAck.asyncWrite] at h
    obtain ⟨_, _, _, _, g16, e2, rfl, rfl⟩ := AWr.append_eq_ok.1 h
    obtain ⟨_, _, _, _, e3, e4, rfl, rfl⟩ := AWr.append_eq_ok.1 g16
    cases e3; cases e4
    obtain ⟨h1, h2⟩ := Props.asyncWrite_length (ha _ (by simp [propSets])) e2
    refine ⟨by simp [h1, Packet.bodyWireLen, ConnAck.wireLen]; omega, fun hs => ?_⟩
    have := h2 (hsr hs _ (by simp [propSets]))
    simp [this]; omega
  | publish p =>
    simp only [Packet.bodyAsyncWrite, Publish.asyncWrite] at h
    obtain ⟨_, _, _, _, g17, e1, rfl, rfl⟩ := AWr.append_eq_ok.1 h
    obtain ⟨_, _, _, _, g18, e2, rfl, rfl⟩ := AWr.append_eq_ok.1 g17
    obtain ⟨_, _, _, _, e3, e4, rfl, rfl⟩ := AWr.append_eq_ok.1 g18
    cases e1; cases e3; cases e4
    obtain ⟨h1, h2⟩ := Props.asyncWrite_length (ha _ (by simp [propSets])) e2
    constructor
    · cases hp : p.pkid <;>
        simp [h1, Packet.bodyWireLen, Publish.wireLen, strWireLen, Publish.pkidBytes, hp] <;> omega
    · intro hs
      have := h2 (hsr hs _ (by simp [propSets]))
      cases hp : p.pkid <;> simp [this, Publish.pkidBytes, Str.length] <;> omega
  | pubAck a =>
    obtain ⟨h1, h2⟩ := ack_asyncWrite_length (ha _ (by simp [propSets])) h
    exact ⟨h1, fun hs => h2 (hsr hs _ (by simp [propSets]))⟩
  | pubRec a =>
    obtain ⟨h1, h2⟩ := ack_asyncWrite_length (ha _ (by simp [propSets])) h
    exact ⟨h1, fun hs => h2 (hsr hs _ (by simp [propSets]))⟩
  | pubRel a =>
    obtain ⟨h1, h2⟩ := ack_asyncWrite_length (ha _ (by simp [propSets])) h
    exact ⟨h1, fun hs => h2 (hsr hs _ (by simp [propSets]))⟩
  | pubComp a =>
    obtain ⟨h1, h2⟩ := ack_asyncWrite_length (ha _ (by simp [propSets])) h
    exact ⟨h1, fun hs => h2 (hsr hs _ (by simp [propSets]))⟩
  | subscribe s =>
    simp only [Packet.bodyAsyncWrite, Subscribe.asyncWrite] at h
    obtain ⟨_, _, _, _, g19, e2, rfl, rfl⟩ := AWr.append_eq_ok.1 h
    obtain ⟨_, _, _, _, e3, e4, rfl, rfl⟩ := AWr.append_eq_ok.1 g19
    cases e2; cases e3
    obtain ⟨h1, h2⟩ := Props.asyncWrite_length (ha _ (by simp [propSets])) e4
    constructor
    · simp only [List.length_append, h1, u16Bytes_length, topicBytes_length, Packet.bodyWireLen,
        Subscribe.wireLen]
      omega
    · intro hs
      have := h2 (hsr hs _ (by simp [propSets]))
      rw [sum_topics, this]
      simp only [List.length_append, u16Bytes_length]
  | subAck a =>
    obtain ⟨h1, h2⟩ := codesAck_asyncWrite_length (ha _ (by simp [propSets])) h
    exact ⟨h1, fun hs => h2 (hsr hs _ (by simp [propSets]))⟩
  | unsubscribe s =>
    simp only [Packet.bodyAsyncWrite, Unsubscribe.asyncWrite] at h
    obtain ⟨_, _, _, _, g20, e2, rfl, rfl⟩ := AWr.append_eq_ok.1 h
    obtain ⟨_, _, _, _, e3, e4, rfl, rfl⟩ := AWr.append_eq_ok.1 g20
    cases e2; cases e3
    obtain ⟨h1, h2⟩ := Props.asyncWrite_length (ha _ (by simp [propSets])) e4
    constructor
    · simp only [List.length_append, h1, u16Bytes_length, strsBytes_length, Packet.bodyWireLen,
        Unsubscribe.wireLen]
      omega
    · intro hs
      have := h2 (hsr hs _ (by simp [propSets]))
      rw [sum_strs, this]
      simp only [List.length_append, u16Bytes_length]
  | unsubAck a =>
    obtain ⟨h1, h2⟩ := codesAck_asyncWrite_length (ha _ (by simp [propSets])) h
    exact ⟨h1, fun hs => h2 (hsr hs _ (by simp [propSets]))⟩
  | pingReq => cases h; simp [Packet.bodyWireLen]
  | pingResp => cases h; simp [Packet.bodyWireLen]
  | disconnect d =>
    simp only [Packet.bodyAsyncWrite, Disconnect.asyncWrite, Packet.bodyWireLen, Disconnect.wireLen] at h ⊢
    split at h
    · rename_i hl
      obtain ⟨_, _, _, _, e1, e2, rfl, rfl⟩ := AWr.append_eq_ok.1 h
      cases e1
      obtain ⟨h1, h2⟩ := Props.asyncWrite_length (ha _ (by simp [propSets])) e2
      rw [if_pos hl]
      refine ⟨by simp [h1]; omega, fun hs => ?_⟩
      have := h2 (hsr hs _ (by simp [propSets]))
      simp [this]; omega
    · rename_i hl
      cases h
      rw [if_neg hl]; simp
  | auth a =>
    obtain ⟨_, _, _, _, e1, e2, rfl, rfl⟩ := AWr.append_eq_ok.1 h
    cases e1
    obtain ⟨h1, h2⟩ := Props.asyncWrite_length (ha _ (by simp [propSets])) e2
    refine ⟨by simp [h1, Packet.bodyWireLen, Auth.wireLen]; omega, fun hs => ?_⟩
    have := h2 (hsr hs _ (by simp [propSets]))
    simp [this]; omega

end Mqrstt
