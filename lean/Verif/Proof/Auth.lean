import Verif.Spec.Auth
import Verif.Proof.Exact
/-! # Authentication data that is not written -/

namespace Mqrstt
open Spec
namespace Props
variable {P : Props}

theorem alone_not_written (hm : P.val .authenticationMethod = none) : P.authDataWritten = false := by
  simp only [authDataWritten, hm]
  cases P.val .authenticationData <;> simp

theorem noData_val {t : PropertyType} (ht : t ≠ .authenticationData) : (noData P).val t = P.val t := by
  simp [noData, ht]

theorem noData_entryLen (hm : P.val .authenticationMethod = none) (e : Entry) :
    (noData P).entryWireLen e = P.entryWireLen e := by
  cases e with
  | single p =>
    by_cases hp : p = .authenticationData
    · subst hp
      have h1 : (noData P).val .authenticationData = none := rfl
      rw [entryWireLen, entryWireLen, h1, alone_not_written hm]
      cases P.val .authenticationData <;> rfl
    · have e1 : ∀ Q : Props, Q.entryWireLen (.single p) = match Q.val p with
          | some v => 1 + p.kind.wireLen v
          | none => 0 := by
        intro Q; cases p <;> first | rfl | exact absurd rfl hp
      rw [e1, e1, noData_val hp]
  | subIdList => rfl
  | user => rfl

theorem noData_wireLen (hm : P.val .authenticationMethod = none) (es : List Entry) :
    (noData P).wireLen es = P.wireLen es := by
  simp only [wireLen]
  congr 1
  exact List.map_congr_left fun e _ => noData_entryLen hm e

theorem noData_asyncWrite (hm : P.val .authenticationMethod = none) (es : List Entry) :
    (noData P).asyncWrite es = P.asyncWrite es := by
  simp only [asyncWrite, noData_wireLen hm]
  congr 2
  refine List.map_congr_left fun e _ => ?_
  cases e with
  | single p =>
    by_cases hp : p = .authenticationData
    · subst hp
      have h1 : (noData P).val .authenticationData = none := rfl
      rw [asyncWriteEntry, asyncWriteEntry, h1, alone_not_written hm]
      cases P.val .authenticationData <;> rfl
    · cases p <;> first | rfl | exact absurd rfl hp
  | subIdList => rfl
  | user => rfl

theorem noData_skip (hm : P.val .authenticationMethod = none) (es order : List Entry) :
    (noData P).syncWrite es order .skip = P.syncWrite es order .skip := by
  simp only [syncWrite, noData_wireLen hm]
  congr 2
  refine List.map_congr_left fun e _ => ?_
  cases e with
  | single p =>
    by_cases hp : p = .authenticationData
    · subst hp
      have h1 : (noData P).val .authenticationData = none := rfl
      rw [syncWriteEntry, syncWriteEntry, h1, alone_not_written hm]
      cases P.val .authenticationData <;> rfl
    · cases p <;> first | rfl | exact absurd rfl hp
  | subIdList => rfl
  | user => rfl

theorem alone_strict (hd : P.val .authenticationData ≠ none) (hm : P.val .authenticationMethod = none)
    {es order : List Entry} (ho : .single .authenticationData ∈ order) : ∃ e, P.syncWrite es order .strict = .error e := by
  have key : ∀ l : List Entry, .single .authenticationData ∈ l →
      ∃ e, syncConcat (l.map (P.syncWriteEntry .strict)) = .error e := by
    intro l
    induction l with
    | nil => intro h; cases h
    | cons e l ih =>
      intro h
      rcases List.mem_cons.1 h with rfl | h
      · refine ⟨.authDataWithoutAuthMethod, ?_⟩
        have : P.syncWriteEntry .strict (.single .authenticationData) = .error .authDataWithoutAuthMethod := by
          rw [syncWriteEntry]
          cases hv : P.val .authenticationData with
          | none => exact absurd hv hd
          | some d => simp [hm]
        simp only [List.map_cons, syncConcat, List.foldr_cons, this]
        rfl
      · obtain ⟨x, hx⟩ := ih h
        simp only [List.map_cons, syncConcat, List.foldr_cons] at hx ⊢
        rw [hx]
        cases P.syncWriteEntry .strict e with
        | error y => exact ⟨y, rfl⟩
        | ok b => exact ⟨x, rfl⟩
  obtain ⟨x, hx⟩ := key order ho
  rw [syncWrite, hx]
  cases VarInt.write (P.wireLen es) with
  | error y => exact ⟨y, rfl⟩
  | ok b => exact ⟨x, rfl⟩

/-- the check at the end of the buffered reader of CONNECT properties -/
theorem connect_checked {b rest : Bytes} {d : Bytes} (h : Props.syncRead connectSync b = .ok (P, rest))
    (hd : P.val .authenticationData = some d) (hne : d ≠ []) : P.val .authenticationMethod ≠ none := by
  intro hm
  rw [Props.syncRead] at h
  obtain ⟨⟨len, k⟩, b1, h1, h⟩ := Rd.bind_eq_ok.1 h
  simp only [Rd.ite_apply] at h
  split at h
  · cases h; cases hd
  · rw [Rd.bufLen_bind] at h
    simp only [Rd.ite_apply] at h
    split at h
    · cases h
    · have hend : ∀ (Q : Props) (c : Bytes), (if (connectSync.authCheck &&
          ((Q.val .authenticationData).any (fun d => !d.isEmpty))
          && (Q.val .authenticationMethod).isNone) = true then Rd.de .malformedPacketWithInfo
          else pure Q : Rd Props) c = .ok (P, rest) → False := by
        intro Q c hq
        simp only [Rd.ite_apply] at hq
        split at hq
        · cases hq
        · rename_i hc
          cases hq
          refine hc ?_
          rw [hd, hm]
          cases d with
          | nil => exact absurd rfl hne
          | cons x d => rfl
      split at h
      · obtain ⟨data, b2, h2, h⟩ := Rd.bind_eq_ok.1 h
        obtain ⟨Q, b3, h3, h⟩ := Rd.bind_eq_ok.1 h
        exact hend _ _ h
      · obtain ⟨Q, b3, h3, h⟩ := Rd.bind_eq_ok.1 h
        exact hend _ _ h

end Props

/-- the properties of a CONNECT come from the reader of its section -/
theorem Connect.read_props {b rest : Bytes} {c : Connect} (h : Connect.read b = .ok (c, rest)) :
    ∃ b1 b2, Props.syncRead connectSync b1 = .ok (c.props, b2) := by
  rw [Connect.read] at h
  obtain ⟨proto, b1, -, h⟩ := Rd.bind_eq_ok.1 h
  simp only [Rd.ite_apply] at h
  split at h
  · cases h
  · obtain ⟨_, b2, -, h⟩ := Rd.bind_eq_ok.1 h
    obtain ⟨flags, b3, -, h⟩ := Rd.bind_eq_ok.1 h
    obtain ⟨ka, b4, -, h⟩ := Rd.bind_eq_ok.1 h
    obtain ⟨P, b5, hP, h⟩ := Rd.bind_eq_ok.1 h
    obtain ⟨cid, b6, -, h⟩ := Rd.bind_eq_ok.1 h
    refine ⟨b4, b5, ?_⟩
    suffices c.props = P by rw [this]; exact hP
    clear hP
    simp only [Rd.pure_apply, Rd.ite_apply, Rd.bind_apply] at h
    repeat' (split at h)
    all_goals first
      | (cases h; done)
      | (cases h; rfl)

/-- a CONNECT comes from the reader of CONNECT -/
theorem Packet.read_connect {bs rest : Bytes} {c : Connect} (h : Packet.read bs = (.ok (.connect c), rest)) :
    ∃ b r, Connect.read b = .ok (c, r) := by
  rw [Packet.read] at h
  split at h
  · simp at h
  · split at h
    · simp at h
    · have h := congrArg Prod.fst h
      simp only at h
      split at h
      · rename_i p hp
        cases h
        rw [Packet.readPacket] at hp
        split at hp
        · rename_i p' b' hb
          cases hp
          exact ⟨_, _, bodyRead_connect hb⟩
        · cases hp
      · cases h

end Mqrstt
