import Verif.Proof.Exact
/-!
# Exactly which packets announce a wrong size (lemmas for C11)
-/

namespace Mqrstt
open Spec

namespace Props

/-- the count of an entry never exceeds what is written, and falls short exactly for a server
reference -/
theorem asyncWriteEntry_le {P : Props} {e : Entry} {bs : Bytes} {n : Nat}
    (h : P.asyncWriteEntry e = .ok (bs, n)) :
    (e ≠ .single .serverReference → n = bs.length) ∧
    (e = .single .serverReference →
      n ≤ bs.length ∧ (P.val .serverReference ≠ none → n < bs.length)) := by
  constructor
  · intro he
    by_cases hc : P.val .serverReference = none
    · exact asyncWriteEntry_count hc h
    · let Q : Props := { P with val := fun p => if hp : p = .serverReference then none else P.val p }
      have hq : Q.asyncWriteEntry e = P.asyncWriteEntry e := by
        cases e with
        | single p => cases p <;> first | rfl | exact absurd rfl he
        | subIdList => rfl
        | user => rfl
      exact asyncWriteEntry_count (P := Q) rfl (hq ▸ h)
  · rintro rfl
    simp only [asyncWriteEntry] at h
    split at h
    · rename_i v hv
      cases h
      simp
    · rename_i hv
      cases h
      exact ⟨Nat.le_refl _, fun h => absurd hv h⟩

theorem asyncConcat_le {α : Type} (l : List α) (f : α → AWr) (a : α)
    (h : ∀ x ∈ l, ∀ bs n, f x = .ok (bs, n) → n ≤ bs.length)
    (ha : a ∈ l) (hs : ∀ bs n, f a = .ok (bs, n) → n < bs.length) {bs : Bytes} {n : Nat}
    (hw : asyncConcat (l.map f) = .ok (bs, n)) : n < bs.length := by
  have le : ∀ (l : List α), (∀ x ∈ l, ∀ bs n, f x = .ok (bs, n) → n ≤ bs.length) → ∀ bs n,
      asyncConcat (l.map f) = .ok (bs, n) → n ≤ bs.length := by
    intro l
    induction l with
    | nil => intro _ bs n h; simp [asyncConcat] at h; obtain ⟨rfl, rfl⟩ := h; simp
    | cons x l ih =>
      intro h bs n hw
      obtain ⟨a, k, b, m, e1, e2, rfl, rfl⟩ :=
        AWr.append_eq_ok.1 (show f x ++ asyncConcat (l.map f) = _ from hw)
      have := h x (by simp) a k e1
      have := ih (fun y hy => h y (by simp [hy])) _ _ e2
      simp; omega
  induction l generalizing bs n with
  | nil => cases ha
  | cons x l ih =>
    obtain ⟨c, k, b, m, e1, e2, rfl, rfl⟩ :=
      AWr.append_eq_ok.1 (show f x ++ asyncConcat (l.map f) = _ from hw)
    rw [List.length_append]
    rcases List.mem_cons.1 ha with rfl | ha
    · have := hs _ _ e1
      have := le l (fun y hy => h y (by simp [hy])) _ _ e2
      omega
    · have := h x (by simp) _ _ e1
      have := ih (fun y hy => h y (by simp [hy])) ha e2
      omega

theorem asyncWrite_count_iff {es : List Entry} {P : Props} {bs : Bytes} {n : Nat}
    (hin : Entry.single .serverReference ∈ es) (h : P.asyncWrite es = .ok (bs, n)) :
    n = bs.length ↔ P.val .serverReference = none := by
  obtain ⟨a, k, b, m, e1, e2, rfl, rfl⟩ := AWr.append_eq_ok.1 h
  have hw := (VarInt.asyncWrite_ok_iff _ _ _).1 e1
  rw [List.length_append, hw.2]
  constructor
  · intro hn
    apply Classical.byContradiction
    intro hv
    have := asyncConcat_le es _ (.single .serverReference) (fun e _ bs n he => by
      by_cases h : e = .single .serverReference
      · exact ((asyncWriteEntry_le he).2 h).1
      · exact Nat.le_of_eq ((asyncWriteEntry_le he).1 h)) hin
      (fun bs n he => ((asyncWriteEntry_le he).2 rfl).2 hv) e2
    omega
  · intro hv
    rw [asyncConcat_count es _ (fun e _ bs n he => asyncWriteEntry_count hv he) e2]

end Props

/-- only a CONNACK or a DISCONNECT can have a server reference -/
theorem serverRef_cases {p : Packet} (wf : WF p) (h : HasServerRef p) :
    (∃ c, p = .connAck c) ∨ (∃ d, p = .disconnect d) := by
  obtain ⟨P, hP, e⟩ := h
  have no : ∀ es : List Entry, PropsWF es P → Entry.single .serverReference ∉ es → False :=
    fun es w hn => hn (w.listed _ e)
  cases p with
  | connect c =>
    simp only [propSets, List.mem_cons] at hP
    rcases hP with rfl | hP
    · exact (no _ wf.1 (by decide)).elim
    · cases hw : c.lastWill with
      | none => rw [hw] at hP; cases hP
      | some w =>
        rw [hw] at hP
        obtain rfl := List.mem_singleton.1 hP
        exact (no _ (wf.2.2.1 w hw).1 (by decide)).elim
  | connAck c => exact .inl ⟨c, rfl⟩
  | auth a => obtain rfl := List.mem_singleton.1 hP; exact (no _ wf.2 (by decide)).elim
  | publish p => obtain rfl := List.mem_singleton.1 hP; exact (no _ wf.2.2 (by decide)).elim
  | pubAck a => obtain rfl := List.mem_singleton.1 hP; exact (no _ wf.2 (by decide)).elim
  | pubRec a => obtain rfl := List.mem_singleton.1 hP; exact (no _ wf.2 (by decide)).elim
  | pubRel a => obtain rfl := List.mem_singleton.1 hP; exact (no _ wf.2 (by decide)).elim
  | pubComp a => obtain rfl := List.mem_singleton.1 hP; exact (no _ wf.2 (by decide)).elim
  | subscribe a => obtain rfl := List.mem_singleton.1 hP; exact (no _ wf.1 (by decide)).elim
  | subAck a => obtain rfl := List.mem_singleton.1 hP; exact (no _ wf.2 (by decide)).elim
  | unsubscribe a => obtain rfl := List.mem_singleton.1 hP; exact (no _ wf.1 (by decide)).elim
  | unsubAck a => obtain rfl := List.mem_singleton.1 hP; exact (no _ wf.2 (by decide)).elim
  | pingReq => cases hP
  | pingResp => cases hP
  | disconnect d => exact .inr ⟨d, rfl⟩

variable {p : Packet} (wf : WF p)
include wf

/-- the count the streaming writer returns is the number of bytes written exactly when there is no
server reference -/
theorem count_iff {bs : Bytes} {n : Nat} (hw : p.asyncWrite = .ok (bs, n)) :
    n = bs.length ↔ ¬ HasServerRef p := by
  obtain ⟨a, na, b, nb, h1, h2, rfl, rfl⟩ := AWr.append_eq_ok.1 hw
  obtain ⟨c, nc, d, nd, h3, h4, rfl, rfl⟩ := AWr.append_eq_ok.1 h1
  cases h3
  rw [Packet.lenAsyncWrite_eq] at h4
  have h5 := (VarInt.asyncWrite_ok_iff _ _ _).1 h4
  have body : nb = b.length ↔ ¬ HasServerRef p := by
    by_cases hc : ∃ c, p = .connAck c
    · obtain ⟨c, rfl⟩ := hc
      simp only [Packet.bodyAsyncWrite, ConnAck.asyncWrite] at h2
      obtain ⟨_, _, x, m, g, e2, rfl, rfl⟩ := AWr.append_eq_ok.1 h2
      obtain ⟨_, _, _, _, e3, e4, rfl, rfl⟩ := AWr.append_eq_ok.1 g
      cases e3; cases e4
      have hb : (boolBytes c.sessionPresent).length = 1 := by cases c.sessionPresent <;> rfl
      have := Props.asyncWrite_count_iff (by decide) e2
      rw [List.length_append, List.length_append, hb, List.length_singleton]
      have e : HasServerRef (.connAck c) ↔ c.props.val .serverReference ≠ none := by
        simp [HasServerRef, propSets]
      rw [e, Classical.not_not, ← this]
      omega
    by_cases hd : ∃ d, p = .disconnect d
    · obtain ⟨d, rfl⟩ := hd
      have e : HasServerRef (.disconnect d) ↔ d.props.val .serverReference ≠ none := by
        simp [HasServerRef, propSets]
      rw [e, Classical.not_not]
      simp only [Packet.bodyAsyncWrite, Disconnect.asyncWrite] at h2
      split at h2
      · obtain ⟨_, _, x, m, g, e2, rfl, rfl⟩ := AWr.append_eq_ok.1 h2
        cases g
        have := Props.asyncWrite_count_iff (by decide) e2
        rw [List.length_append, List.length_singleton, ← this]
        omega
      · rename_i hl
        cases h2
        have hl : d.reason = .normalDisconnection ∧ d.props.wireLen disconnectEntries = 0 := by
          simpa [Disconnect.isLong] using hl
        have h0 : d.props.entryWireLen (.single .serverReference) = 0 := by
          have := hl.2
          simp only [Props.wireLen, disconnectEntries, List.map_cons, List.map_nil, List.sum_cons,
            List.sum_nil] at this
          omega
        refine ⟨fun _ => ?_, fun _ => rfl⟩
        cases hv : d.props.val .serverReference with
        | none => rfl
        | some v =>
          simp only [Props.entryWireLen, hv] at h0
          omega
    · have hn : ¬ HasServerRef p := fun h => (serverRef_cases wf h).elim hc hd
      have ha : ¬ HasAssignedId p := fun h => by
        obtain ⟨c, e, -⟩ := assignedId_cases wf h
        exact hc ⟨c, e⟩
      have := (Packet.bodyAsyncWrite_length ha h2).2 hn
      simp [this, hn]
  rw [← body, h5.2]
  simp
  omega

variable (hf : p.bodyWireLen ≤ 268435455)
include hf

/-- the buffered writer announces a wrong size exactly for a CONNECT or CONNACK with empty
authentication data -/
theorem write_size_iff {bs : Bytes} (hw : p.write = .ok bs) :
    p.wireLen = bs.length ↔ ¬ (EmptyAuthData p ∧ ∀ a, p ≠ .auth a) := by
  by_cases he : EmptyAuthData p
  · rcases emptyAuth_cases wf he with ⟨c, rfl, e⟩ | ⟨c, rfl, e⟩ | ⟨a, rfl, e⟩
    · obtain ⟨tail, h1, hS, hl⟩ := connect_strict wf hf e
      rw [h1] at hw
      cases hw
      rw [Packet.wireLen_eq, List.length_cons, List.length_append, hl, vbi_length hf]
      refine ⟨fun h => by omega, fun h => absurd ⟨he, by simp⟩ h⟩
    · obtain ⟨h1, h2, h3⟩ := connAck_strict wf hf e
      rw [h1] at hw
      cases hw
      have hl : (boolBytes c.sessionPresent).length = 1 := by cases c.sessionPresent <;> rfl
      have h5 : Packet.bodyWireLen (.connAck c) = 2 + VarInt.len (c.props.wireLen connAckEntries) +
        c.props.wireLen connAckEntries := rfl
      have h6 := vbi_length hf
      have h7 := vbi_length h3
      rw [Packet.wireLen_eq]
      refine ⟨fun h => ?_, fun h => absurd ⟨he, by simp⟩ h⟩
      simp only [List.length_cons, List.length_append, List.length_nil, hl, h2] at h
      omega
    · have e1 : (Packet.auth a).write = (Packet.auth { a with props := a.props.noAuth }).write := by
        simp only [Packet.write, Packet.lenWrite, Packet.bodyWireLen, Auth.wireLen, Packet.bodyWrite,
          Auth.write, Props.noAuth_skip e, Props.noAuth_wireLen e]
        rfl
      have e2 : (Packet.auth a).wireLen = (Packet.auth { a with props := a.props.noAuth }).wireLen := by
        simp only [Packet.wireLen_eq, Packet.bodyWireLen, Auth.wireLen, Props.noAuth_wireLen e]
      have hn : ¬ EmptyAuthData (.auth { a with props := a.props.noAuth }) := by
        rintro ⟨P, hP, e⟩
        obtain rfl := List.mem_singleton.1 hP
        exact Props.noAuth_nonempty e
      rw [e1] at hw
      refine ⟨fun _ h => h.2 a rfl, fun _ => ?_⟩
      rw [e2, Packet.wireLen_eq]
      obtain ⟨a, b, h1, h2, rfl⟩ := Wr.append_eq_ok.1 hw
      obtain ⟨c, d, h3, h4, rfl⟩ := Wr.append_eq_ok.1 h1
      cases h3
      rw [Packet.lenWrite_eq] at h4
      have hv := (VarInt.write_ok_iff _ _ h4).2.1
      have hl := Packet.bodyWrite_length hn h2
      simp
      omega
  · refine ⟨fun _ h => he h.1, fun _ => ?_⟩
    rw [Packet.wireLen_eq]
    obtain ⟨a, b, h1, h2, rfl⟩ := Wr.append_eq_ok.1 hw
    obtain ⟨c, d, h3, h4, rfl⟩ := Wr.append_eq_ok.1 h1
    cases h3
    rw [Packet.lenWrite_eq] at h4
    have hv := (VarInt.write_ok_iff _ _ h4).2.1
    have hl := Packet.bodyWrite_length he h2
    simp
    omega

/-- the streaming writer announces a wrong size exactly for an assigned client identifier -/
theorem asyncWrite_size_iff {bs : Bytes} {n : Nat} (hw : p.asyncWrite = .ok (bs, n)) :
    p.wireLen = bs.length ↔ ¬ HasAssignedId p := by
  rw [Packet.wireLen_eq]
  constructor
  · intro h ha
    obtain ⟨items, c, rfl, rfl, hl⟩ := assignedId_shape wf hf ha hw
    have hm : c.props.wireLen connAckEntries ≤ 268435455 := by
      simp only [Packet.bodyWireLen, ConnAck.wireLen] at hf; omega
    have hb : (boolBytes c.sessionPresent).length = 1 := by cases c.sessionPresent <;> rfl
    have h5 : Packet.bodyWireLen (.connAck c) = 2 + VarInt.len (c.props.wireLen connAckEntries) +
      c.props.wireLen connAckEntries := rfl
    have h6 := vbi_length hf
    have h7 := vbi_length hm
    simp only [List.length_cons, List.length_append, hb] at h
    omega
  · intro hx
    obtain ⟨a, na, b, nb, h1, h2, rfl, rfl⟩ := AWr.append_eq_ok.1 hw
    obtain ⟨c, nc, d, nd, h3, h4, rfl, rfl⟩ := AWr.append_eq_ok.1 h1
    cases h3
    rw [Packet.lenAsyncWrite_eq] at h4
    have h5 := (VarInt.asyncWrite_ok_iff _ _ _).1 h4
    obtain ⟨h6, h7⟩ := Packet.bodyAsyncWrite_length hx h2
    have hv := (VarInt.write_ok_iff _ _ h5.1).2.1
    simp
    omega

end Mqrstt
