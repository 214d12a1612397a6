import Verif.Proof.Sizes
import Verif.Proof.Safe
/-! # Every packet the codecs are said to mishandle is mishandled -/

namespace Mqrstt
open Spec

/-! ## Empty authentication data -/

/-- the same properties without authentication data -/
def Props.noAuth (P : Props) : Props :=
  { P with val := fun p => if p = .authenticationData then none else P.val p }

namespace Props
variable {P : Props}

theorem noAuth_ne (h : P.val .authenticationData = some []) : P.noAuth ≠ P := by
  intro e
  have := congrArg (fun Q => (Q.val .authenticationData)) e
  rw [h] at this
  cases this

theorem noAuth_wf {es : List Entry} (h : PropsWF es P) : PropsWF es P.noAuth := by
  refine ⟨fun p hp => h.listed p fun e => hp ?_, h.listedIds, h.listedUsers, fun p v hv => ?_, h.ids,
    h.users, fun hn => absurd (show P.noAuth.val .authenticationData = none from rfl) hn⟩
  · simp only [noAuth]; split
    · rfl
    · exact e
  · simp only [noAuth] at hv
    split at hv
    · cases hv
    · exact h.values p v hv

theorem noAuth_nonempty : AuthDataNonempty P.noAuth := by
  intro h; cases h

theorem noAuth_written (h : P.val .authenticationData = some []) :
    P.authDataWritten = false := by
  simp [authDataWritten, h]

theorem noAuth_entryLen (h : P.val .authenticationData = some []) (e : Entry) :
    P.noAuth.entryWireLen e = P.entryWireLen e := by
  cases e with
  | single p =>
    by_cases hp : p = .authenticationData
    · subst hp
      have h1 : P.noAuth.val .authenticationData = none := rfl
      rw [entryWireLen, entryWireLen, h1, h, noAuth_written h]; rfl
    · have e1 : ∀ Q : Props, Q.entryWireLen (.single p) = match Q.val p with
          | some v => 1 + p.kind.wireLen v
          | none => 0 := by
        intro Q; cases p <;> first | rfl | exact absurd rfl hp
      rw [e1, e1]; simp [noAuth, hp]
  | subIdList => rfl
  | user => rfl

theorem noAuth_wireLen (h : P.val .authenticationData = some []) (es : List Entry) :
    P.noAuth.wireLen es = P.wireLen es := by
  simp only [wireLen]
  congr 1
  exact List.map_congr_left fun e _ => noAuth_entryLen h e

theorem noAuth_asyncWrite (h : P.val .authenticationData = some []) (es : List Entry) :
    P.noAuth.asyncWrite es = P.asyncWrite es := by
  simp only [asyncWrite, noAuth_wireLen h]
  congr 2
  refine List.map_congr_left fun e _ => ?_
  cases e with
  | single p =>
    cases p <;> first
      | rfl
      | (simp only [asyncWriteEntry, h, noAuth_written h]; rfl)
  | subIdList => rfl
  | user => rfl

theorem noAuth_syncEntry (h : P.val .authenticationData = some []) (mode : AuthMode) (e : Entry)
    (hm : mode = .skip ∨ e ≠ .single .authenticationData) :
    P.noAuth.syncWriteEntry mode e = P.syncWriteEntry mode e := by
  cases e with
  | single p =>
    by_cases hp : p = .authenticationData
    · subst hp
      obtain rfl := hm.resolve_right (fun h => h rfl)
      have h1 : P.noAuth.val .authenticationData = none := rfl
      rw [syncWriteEntry, syncWriteEntry, h1, h]
      simp [noAuth_written h]
    · have e1 : ∀ Q : Props, Q.syncWriteEntry mode (.single p) = match Q.val p with
          | some v => syncItem p (p.kind.write v)
          | none => .ok [] := by
        intro Q; cases p <;> first | rfl | exact absurd rfl hp
      rw [e1, e1]; simp [noAuth, hp]
  | subIdList => rfl
  | user => rfl

theorem noAuth_skip (h : P.val .authenticationData = some []) (es order : List Entry) :
    P.noAuth.syncWrite es order .skip = P.syncWrite es order .skip := by
  simp only [syncWrite, noAuth_wireLen h]
  congr 2
  exact List.map_congr_left fun e _ => noAuth_syncEntry h _ e (.inl rfl)

theorem syncConcat_snoc (l : List Wr) (x : Wr) : syncConcat (l ++ [x]) = syncConcat l ++ x := by
  induction l with
  | nil =>
    show x ++ (.ok [] : Wr) = (.ok [] : Wr) ++ x
    cases x with
    | error e => rfl
    | ok b => simp
  | cons y l ih =>
    show y ++ syncConcat (l ++ [x]) = (y ++ syncConcat l) ++ x
    rw [ih]
    cases y with
    | error e => rfl
    | ok b =>
      cases syncConcat l with
      | error e => rfl
      | ok c =>
        cases x with
        | error e => rfl
        | ok d => simp

/-- the strict writers put the empty authentication data behind a section that does not count it -/
theorem strict_write {init : List Entry} (hi : Entry.single .authenticationData ∉ init)
    (hf : P.wireLen (init ++ [.single .authenticationData]) ≤ 268435455)
    (hd : ((init ++ [Entry.single .authenticationData]).map Entry.wireType).Nodup)
    (wf : PropsWF (init ++ [.single .authenticationData]) P)
    (h : P.val .authenticationData = some []) :
    P.syncWrite (init ++ [.single .authenticationData]) (init ++ [.single .authenticationData]) .strict =
      .ok (P.noAuth.sect (init ++ [.single .authenticationData])
        (init ++ [.single .authenticationData]) ++ [22, 0, 0]) := by
  have hS : SectOk (init ++ [.single .authenticationData]) (init ++ [.single .authenticationData])
      P.noAuth := ⟨noAuth_wf wf, noAuth_nonempty, by rw [noAuth_wireLen h]; exact hf, hd, .refl _⟩
  have hm : (P.val .authenticationMethod).isNone = false := by
    have := wf.auth (by rw [h]; simp)
    cases e : P.val .authenticationMethod with
    | none => exact absurd e this
    | some v => rfl
  have h1 := hS.syncWrite .strict
  have e1 : P.noAuth.syncWriteEntry .strict (.single .authenticationData) = .ok [] := rfl
  have e2 : P.syncWriteEntry .strict (.single .authenticationData) = .ok [22, 0, 0] := by
    rw [syncWriteEntry, h]
    simp only [hm]
    rfl
  have e3 : init.map (P.noAuth.syncWriteEntry .strict) = init.map (P.syncWriteEntry .strict) :=
    List.map_congr_left fun e he => noAuth_syncEntry h _ e (.inr fun hh => hi (hh ▸ he))
  rw [syncWrite, List.map_append, List.map_cons, List.map_nil, syncConcat_snoc] at h1 ⊢
  rw [e1, e3, noAuth_wireLen h] at h1
  rw [e2]
  cases hv : VarInt.write (P.wireLen (init ++ [.single .authenticationData])) with
  | error e => rw [hv] at h1; cases h1
  | ok a =>
    rw [hv] at h1
    cases hc : syncConcat (init.map (P.syncWriteEntry .strict)) with
    | error e => rw [hc] at h1; cases h1
    | ok c =>
      rw [hc] at h1
      simp at h1 ⊢
      rw [← List.append_assoc, h1]

/-- the streaming writer leaves the assigned client identifier out of a section that counts it -/
theorem asyncWrite_short {es : List Entry} (hi : Entry.single .assignedClientIdentifier ∈ es)
    (h : P.val .assignedClientIdentifier ≠ none) {bs : Bytes} {n : Nat}
    (e : P.asyncWrite es = .ok (bs, n)) :
    ∃ items, bs = vbi (P.wireLen es) ++ items ∧ items.length < P.wireLen es := by
  obtain ⟨a, k, b, m, e1, e2, rfl, rfl⟩ := AWr.append_eq_ok.1 e
  have h1 := (VarInt.asyncWrite_ok_iff _ _ _).1 e1
  have h2 := (VarInt.write_ok_iff _ _ h1.1).1
  rw [write_vbi h2] at h1
  obtain rfl : vbi (P.wireLen es) = a := by injection h1.1
  refine ⟨b, rfl, ?_⟩
  let Q : Props := { P with val := fun p => if p = .assignedClientIdentifier then none else P.val p }
  have hq : ∀ p, p ≠ .assignedClientIdentifier → Q.val p = P.val p := fun p hp => by simp [Q, hp]
  have hw : Q.authDataWritten = P.authDataWritten := by
    simp only [authDataWritten, hq .authenticationData (by decide), hq .authenticationMethod (by decide)]
  have e3 : es.map P.asyncWriteEntry = es.map Q.asyncWriteEntry := by
    refine List.map_congr_left fun e _ => ?_
    cases e with
    | single p =>
      cases p <;> first
        | rfl
        | (simp only [asyncWriteEntry, hw]; rfl)
    | subIdList => rfl
    | user => rfl
  rw [e3] at e2
  have h3 : b.length = Q.wireLen es := asyncConcat_length _ _ _
    (fun e _ bs n he => asyncWriteEntry_length (P := Q) rfl he) e2
  rw [h3, wireLen, wireLen]
  have key : ∀ e : Entry, Q.entryWireLen e ≤ P.entryWireLen e := by
    intro e
    cases e with
    | single p =>
      cases p <;> first
        | exact Nat.le_refl _
        | (simp only [entryWireLen, hw]; exact Nat.le_refl _)
        | exact Nat.zero_le _
    | subIdList => exact Nat.le_refl _
    | user => exact Nat.le_refl _
  have less : Q.entryWireLen (.single .assignedClientIdentifier) <
      P.entryWireLen (.single .assignedClientIdentifier) := by
    have e4 : Q.entryWireLen (.single .assignedClientIdentifier) = 0 := rfl
    rw [e4, entryWireLen]
    · cases hv : P.val .assignedClientIdentifier with
      | none => exact absurd hv h
      | some v => simp only; omega
    · decide
  have tot : ∀ l : List Entry, (l.map Q.entryWireLen).sum ≤ (l.map P.entryWireLen).sum := by
    intro l
    induction l with
    | nil => exact Nat.le_refl _
    | cons e l ih => simp only [List.map_cons, List.sum_cons]; have := key e; omega
  clear e3 e2 h3 h2 h1 e e1
  induction es with
  | nil => cases hi
  | cons e l ih =>
    simp only [List.map_cons, List.sum_cons]
    rcases List.mem_cons.1 hi with rfl | hi
    · have := tot l; omega
    · have := ih hi; have := key e; omega

end Props

/-! ## What a whole read says about lengths -/

/-- if the buffered reader uses up a frame, its announced length is its length -/
theorem Packet.read_exact {first : UInt8} {n : Nat} (hn : n ≤ 268435455) {body : Bytes} {q : Packet}
    (h : Packet.read (first :: (vbi n ++ body)) = (.ok q, [])) : body.length = n := by
  rw [Packet.read, FixedHeader.read_vbi _ _ hn] at h
  cases ht : PacketType.fromFirstByte first with
  | error e => rw [ht] at h; simp at h
  | ok x =>
    obtain ⟨t, f⟩ := x
    rw [ht] at h
    simp only [List.length_cons, List.length_append] at h
    split at h
    · simp at h
    · rename_i hl
      have h2 := congrArg Prod.snd h
      have h1 : List.drop (1 + (vbi n).length) (first :: (vbi n ++ body)) = body := by
        rw [Nat.add_comm, List.drop_succ_cons, List.drop_left]
      simp only [h1] at h2
      have := List.drop_eq_nil_iff.1 h2
      omega

/-- if the streaming reader uses up a property section, its announced length is its length -/
theorem Props.asyncRead_exact {es : List Entry} {m : Nat} (hm : m ≤ 268435455) {items : Bytes}
    {P : Props} {k : Nat} (h : Props.asyncRead es (vbi m ++ items) = .ok ((P, k), [])) :
    items.length = m := by
  obtain ⟨-, -, -, -, hr, -⟩ := VarInt.write_ok_iff _ _ (write_vbi hm)
  rw [Props.asyncRead, Rd.bind_ok (hr _)] at h
  simp only [Rd.ite_apply] at h
  split at h
  · rename_i h0
    cases h
    simp [h0]
  · rw [Rd.bufLen_bind] at h
    obtain ⟨⟨Q, j⟩, b, h1, h2⟩ := Rd.bind_eq_ok.1 h
    cases h2
    obtain ⟨rfl, pre, e1, e2⟩ := Props.asyncLoop_counts _ _ _ _ _ _ _ _ _ h1
    rw [e1]
    simp
    omega

/-- if the streaming reader uses up a CONNACK, the announced length of its properties is their length -/
theorem Packet.asyncRead_connAck_exact {n m : Nat} (hn : n ≤ 268435455) (hm : m ≤ 268435455)
    {sp : Bool} {r : Reason} (hr : r ∈ Reason.connAck) {items : Bytes} {q : Packet}
    (h : Packet.asyncRead (0x20 :: (vbi n ++ (boolBytes sp ++ (r.toU8 :: (vbi m ++ items))))) =
      .ok (q, [])) : items.length = m := by
  rw [Packet.asyncRead, Rd.bind_apply, FixedHeader.asyncRead_vbi _ _ hn,
    show PacketType.fromFirstByte 0x20 = .ok (.connAck, 0) from rfl] at h
  simp only [Packet.asyncReadPacket] at h
  obtain ⟨⟨c, k⟩, b, h1, h2⟩ := Rd.bind_eq_ok.1 h
  cases h2
  rw [ConnAck.asyncRead] at h1
  obtain ⟨⟨s, k1⟩, b1, h2, h3⟩ := Rd.bind_eq_ok.1 h1
  obtain ⟨⟨r', k2⟩, b2, h4, h5⟩ := Rd.bind_eq_ok.1 h3
  obtain ⟨⟨P, k3⟩, b3, h6, h7⟩ := Rd.bind_eq_ok.1 h5
  cases h7
  have e1 : b1 = r.toU8 :: (vbi m ++ items) := by
    cases sp <;> (simp only [ConnAck.asyncReadFlags, boolBytes] at h2; cases h2; rfl)
  subst e1
  rw [Reason.asyncRead_toU8 nodup_codes.1 hr] at h4
  cases h4
  exact Props.asyncRead_exact hm h6

/-! ## The classes -/

/-- only CONNECT, CONNACK and AUTH can have empty authentication data -/
theorem emptyAuth_cases {p : Packet} (wf : WF p) (h : EmptyAuthData p) :
    (∃ c, p = .connect c ∧ c.props.val .authenticationData = some []) ∨
    (∃ c, p = .connAck c ∧ c.props.val .authenticationData = some []) ∨
    (∃ a, p = .auth a ∧ a.props.val .authenticationData = some []) := by
  obtain ⟨P, hP, e⟩ := h
  have no : ∀ es : List Entry, PropsWF es P → Entry.single .authenticationData ∉ es → False :=
    fun es w hn => hn (w.listed _ (by rw [e]; simp))
  cases p with
  | connect c =>
    simp only [propSets, List.mem_cons] at hP
    rcases hP with rfl | hP
    · exact .inl ⟨c, rfl, e⟩
    · cases hw : c.lastWill with
      | none => rw [hw] at hP; cases hP
      | some w =>
        rw [hw] at hP
        obtain rfl := List.mem_singleton.1 hP
        exact (no _ (wf.2.2.1 w hw).1 (by decide)).elim
  | connAck c => obtain rfl := List.mem_singleton.1 hP; exact .inr (.inl ⟨c, rfl, e⟩)
  | auth a => obtain rfl := List.mem_singleton.1 hP; exact .inr (.inr ⟨a, rfl, e⟩)
  | publish p => obtain rfl := List.mem_singleton.1 hP; exact (no _ wf.2.2 (by decide)).elim
  | pubAck a => obtain rfl := List.mem_singleton.1 hP; exact (no _ wf.2 (by decide)).elim
  | pubRec a => obtain rfl := List.mem_singleton.1 hP; exact (no _ wf.2 (by decide)).elim
  | pubRel a => obtain rfl := List.mem_singleton.1 hP; exact (no _ wf.2 (by decide)).elim
  | pubComp a => obtain rfl := List.mem_singleton.1 hP; exact (no _ wf.2 (by decide)).elim
  | subscribe a => obtain rfl := List.mem_singleton.1 hP; exact (no _ wf.1 (by decide)).elim
  | subAck a => obtain rfl := List.mem_singleton.1 hP; exact (no _ wf.2 (by decide)).elim
  | unsubscribe a => obtain rfl := List.mem_singleton.1 hP; exact (no _ wf.1 (by decide)).elim
  | unsubAck a => obtain rfl := List.mem_singleton.1 hP; exact (no _ wf.2 (by decide)).elim
  | pingReq => cases hP
  | pingResp => cases hP
  | disconnect d => obtain rfl := List.mem_singleton.1 hP; exact (no _ wf.2 (by decide)).elim

/-- only a CONNACK can have an assigned client identifier -/
theorem assignedId_cases {p : Packet} (wf : WF p) (h : HasAssignedId p) :
    ∃ c, p = .connAck c ∧ c.props.val .assignedClientIdentifier ≠ none := by
  obtain ⟨P, hP, e⟩ := h
  have no : ∀ es : List Entry, PropsWF es P → Entry.single .assignedClientIdentifier ∉ es → False :=
    fun es w hn => hn (w.listed _ e)
  cases p with
  | connect c =>
    simp only [propSets, List.mem_cons] at hP
    rcases hP with rfl | hP
    · exact (no _ wf.1 (by decide)).elim
    · cases hw : c.lastWill with
      | none => rw [hw] at hP; cases hP
      | some w =>
        rw [hw] at hP
        obtain rfl := List.mem_singleton.1 hP
        exact (no _ (wf.2.2.1 w hw).1 (by decide)).elim
  | connAck c => obtain rfl := List.mem_singleton.1 hP; exact ⟨c, rfl, e⟩
  | auth a => obtain rfl := List.mem_singleton.1 hP; exact (no _ wf.2 (by decide)).elim
  | publish p => obtain rfl := List.mem_singleton.1 hP; exact (no _ wf.2.2 (by decide)).elim
  | pubAck a => obtain rfl := List.mem_singleton.1 hP; exact (no _ wf.2 (by decide)).elim
  | pubRec a => obtain rfl := List.mem_singleton.1 hP; exact (no _ wf.2 (by decide)).elim
  | pubRel a => obtain rfl := List.mem_singleton.1 hP; exact (no _ wf.2 (by decide)).elim
  | pubComp a => obtain rfl := List.mem_singleton.1 hP; exact (no _ wf.2 (by decide)).elim
  | subscribe a => obtain rfl := List.mem_singleton.1 hP; exact (no _ wf.1 (by decide)).elim
  | subAck a => obtain rfl := List.mem_singleton.1 hP; exact (no _ wf.2 (by decide)).elim
  | unsubscribe a => obtain rfl := List.mem_singleton.1 hP; exact (no _ wf.1 (by decide)).elim
  | unsubAck a => obtain rfl := List.mem_singleton.1 hP; exact (no _ wf.2 (by decide)).elim
  | pingReq => cases hP
  | pingResp => cases hP
  | disconnect d => obtain rfl := List.mem_singleton.1 hP; exact (no _ wf.2 (by decide)).elim

/-- what the buffered writer makes of a CONNACK with empty authentication data -/
theorem connAck_strict {c : ConnAck} (wf : WF (.connAck c)) (hf : Packet.bodyWireLen (.connAck c) ≤ 268435455)
    (h : c.props.val .authenticationData = some []) :
    (Packet.connAck c).write = .ok (0x20 :: (vbi (Packet.bodyWireLen (.connAck c)) ++
      (boolBytes c.sessionPresent ++ (c.reason.toU8 ::
        (vbi (c.props.wireLen connAckEntries) ++
          ((c.props.noAuth.items connAckEntries).flatMap Item.bytes ++ [22, 0, 0])))))) ∧
    ((c.props.noAuth.items connAckEntries).flatMap Item.bytes).length = c.props.wireLen connAckEntries ∧
    c.props.wireLen connAckEntries ≤ 268435455 := by
  have hl : c.props.wireLen connAckEntries ≤ 268435455 := by
    simp only [Packet.bodyWireLen, ConnAck.wireLen] at hf; omega
  have h1 := Props.strict_write (init := connAckEntries.dropLast) (by decide) hl
    (show ((connAckEntries).map Entry.wireType).Nodup from nodup_tables.2.2.1) wf.2 h
  have h1 : Props.syncWrite connAckEntries connAckEntries .strict c.props =
    .ok (c.props.noAuth.sect connAckEntries connAckEntries ++ [22, 0, 0]) := h1
  refine ⟨?_, ?_, hl⟩
  · simp only [Packet.write, Packet.lenWrite_eq, write_vbi hf, Packet.bodyWrite, ConnAck.write, h1,
      Reason.write, Props.sect, Props.noAuth_wireLen h, Packet.firstByte, Wr.ok_append_ok]
    simp only [List.append_assoc, List.cons_append, List.nil_append]
  · rw [Props.items_length _ (Props.noAuth_wf wf.2) Props.noAuth_nonempty, Props.noAuth_wireLen h]

/-- what the buffered writer makes of a CONNECT with empty authentication data -/
theorem connect_strict {c : Connect} (wf : WF (.connect c)) (hf : Packet.bodyWireLen (.connect c) ≤ 268435455)
    (h : c.props.val .authenticationData = some []) :
    ∃ tail, (Packet.connect c).write = .ok (0x10 :: (vbi (Packet.bodyWireLen (.connect c)) ++
      (binBytes Connect.protocolName ++ (5 :: c.flags.toU8 :: (u16Bytes c.keepAlive ++
        (c.props.noAuth.sect connectEntries connectEntries ++ ([22, 0, 0] ++ tail))))))) ∧
    SectOk connectEntries connectEntries c.props.noAuth ∧
    (binBytes Connect.protocolName ++ (5 :: c.flags.toU8 :: (u16Bytes c.keepAlive ++
        (c.props.noAuth.sect connectEntries connectEntries ++ ([22, 0, 0] ++ tail))))).length =
      Packet.bodyWireLen (.connect c) + 3 := by
  have hl : c.props.wireLen connectEntries ≤ 268435455 := by
    simp only [Packet.bodyWireLen, Connect.wireLen] at hf; omega
  have h1 := Props.strict_write (init := connectEntries.dropLast) (by decide) hl
    (show ((connectEntries).map Entry.wireType).Nodup from nodup_tables.1) wf.1 h
  have h1 : Props.syncWrite connectEntries connectEntries .strict c.props =
    .ok (c.props.noAuth.sect connectEntries connectEntries ++ [22, 0, 0]) := h1
  have hS : SectOk connectEntries connectEntries c.props.noAuth :=
    ⟨Props.noAuth_wf wf.1, Props.noAuth_nonempty, by rw [Props.noAuth_wireLen h]; exact hl,
      nodup_tables.1, .refl _⟩
  let c' : Connect := { c with props := c.props.noAuth }
  have hb : BodyOk (.connect c') := by
    refine ⟨⟨Props.noAuth_wf wf.1, wf.2⟩, ?_, ?_⟩
    · simp only [Packet.bodyWireLen, Connect.wireLen, c', Props.noAuth_wireLen h] at hf ⊢; exact hf
    · intro P hP
      simp only [propSets, c', List.mem_cons] at hP
      rcases hP with rfl | hP
      · exact Props.noAuth_nonempty
      · cases hw : c.lastWill with
        | none => rw [hw] at hP; cases hP
        | some w =>
          rw [hw] at hP
          obtain rfl := List.mem_singleton.1 hP
          intro e
          exact absurd ((wf.2.2.1 w hw).1.listed _ (by rw [e]; simp)) (by decide)
  have hlen := hb.length (ord := publishEntries) (.refl _)
  have hlen' : Packet.bodyWireLen (.connect c') = Packet.bodyWireLen (.connect c) := by
    simp only [Packet.bodyWireLen, Connect.wireLen, c', Props.noAuth_wireLen h]
  have hw : ∀ w, c.lastWill = some w → w.write = .ok (willBody w) := by
    intro w e
    have := (hb.willSect (w := w) e).syncWrite .skip
    simp [LastWill.write, this, willBody]
  refine ⟨strBytes c.clientId ++ (optWillBody c.lastWill ++ (Connect.optStrBytes c.username ++
    Connect.optStrBytes c.password)), ?_, hS, ?_⟩
  · simp only [Packet.write, Packet.lenWrite_eq, write_vbi hf, Packet.bodyWrite, Connect.write, h1,
      Packet.firstByte, Wr.ok_append_ok]
    cases e : c.lastWill with
    | none => simp [optWillBody]
    | some w => simp [optWillBody, hw w e]
  · rw [← hlen', ← hlen]
    simp only [Packet.bodyBytes, c', List.length_append, List.length_cons, List.length_nil]
    omega

/-! ### Readers -/

/-- the streaming reader takes the properties of a CONNECT from their section -/
theorem connect_asyncRead_props {P : Props} (hS : SectOk connectEntries connectEntries P)
    {n : Nat} (hn : n ≤ 268435455) {f : ConnectFlags} {k : UInt16} {tail r : Bytes} {c : Connect}
    (h : Packet.asyncRead (0x10 :: (vbi n ++ (binBytes Connect.protocolName ++ (5 :: f.toU8 ::
      (u16Bytes k ++ (P.sect connectEntries connectEntries ++ tail)))))) = .ok (.connect c, r)) :
    c.props = P := by
  rw [Packet.asyncRead, Rd.bind_apply, FixedHeader.asyncRead_vbi _ _ hn,
    show PacketType.fromFirstByte 0x10 = .ok (.connect, 0) from rfl] at h
  simp only [Packet.asyncReadPacket] at h
  obtain ⟨⟨c', m⟩, b, h1, h2⟩ := Rd.bind_eq_ok.1 h
  cases h2
  have h6 : ∀ r, aExact 6 (binBytes Connect.protocolName ++ r) =
      .ok (binBytes Connect.protocolName, r) :=
    fun r => aExact_append r (binBytes Connect.protocolName)
  rw [Connect.asyncRead, Rd.bind_ok (h6 _), if_neg (by decide)] at h1
  simp only [Rd.bind_apply, asyncReadProtocolVersion, Rd.ite_apply, aU8_cons,
    ConnectFlags.asyncRead_toU8, aU16_u16Bytes, hS.asyncRead, if_true, Rd.pure_apply] at h1
  repeat' (split at h1)
  all_goals first
    | (cases h1; done)
    | (cases h1; rfl)

theorem willLoop_format (fuel : Nat) : ∀ (P : Props) (b : Bytes) (Q : Props) (r : Bytes),
    P.val .payloadFormatIndicator = none → Props.syncLoop willSync fuel P b = .ok (Q, r) →
    Q.val .payloadFormatIndicator = none := by
  induction fuel with
  | zero => intro P b Q r _ h; cases h
  | succ fuel ih =>
    intro P b Q r hP h
    rw [Props.syncLoop] at h
    obtain ⟨t, b1, h1, h2⟩ := Rd.bind_eq_ok.1 h
    cases hs : Entry.select willSync.entries t with
    | none => rw [hs] at h2; cases h2
    | some e =>
      rw [hs] at h2
      obtain ⟨P', b2, h3, h4⟩ := Rd.bind_eq_ok.1 h2
      have hP' : P'.val .payloadFormatIndicator = none := by
        cases e with
        | single p =>
          by_cases hp : p = .payloadFormatIndicator
          · subst hp
            simp [Props.syncReadEntry, willSync, hP] at h3
          · rw [Props.syncReadEntry] at h3
            simp only [Rd.ite_apply] at h3
            have hset : ∀ v : p.kind.T, (P.set p v).val .payloadFormatIndicator = none := fun v => by
              simp [Props.set, Ne.symm hp, hP]
            generalize (if p ∈ willSync.inverted then (P.val p).isNone else (P.val p).isSome) = dup at h3
            cases dup with
            | true => cases h3
            | false =>
              simp only [Bool.false_eq_true, if_false] at h3
              split at h3 <;>
              · obtain ⟨v, b3, h5, h6⟩ := Rd.bind_eq_ok.1 h3
                cases h6
                exact hset v
        | subIdList =>
          obtain ⟨v, b3, h5, h6⟩ := Rd.bind_eq_ok.1 h3
          cases h6; exact hP
        | user =>
          obtain ⟨v, b3, h5, h6⟩ := Rd.bind_eq_ok.1 h3
          obtain ⟨w, b4, h7, h8⟩ := Rd.bind_eq_ok.1 h6
          cases h8; exact hP
      rw [Rd.bufLen_bind] at h4
      simp only [Rd.ite_apply] at h4
      split at h4
      · cases h4; exact hP'
      · exact ih _ _ _ _ hP' h4

/-- the buffered reader never finds a payload format indicator in a last will -/
theorem will_read_format {q : QoS} {t : Bool} {b r : Bytes} {w : LastWill}
    (h : LastWill.read q t b = .ok (w, r)) : w.props.val .payloadFormatIndicator = none := by
  rw [LastWill.read] at h
  obtain ⟨P, b1, h1, h2⟩ := Rd.bind_eq_ok.1 h
  obtain ⟨s, b2, h3, h4⟩ := Rd.bind_eq_ok.1 h2
  obtain ⟨v, b3, h5, h6⟩ := Rd.bind_eq_ok.1 h4
  cases h6
  show P.val _ = none
  rw [Props.syncRead] at h1
  obtain ⟨⟨len, k⟩, b4, h7, h8⟩ := Rd.bind_eq_ok.1 h1
  simp only [Rd.ite_apply] at h8
  split at h8
  · cases h8; rfl
  · rw [Rd.bufLen_bind] at h8
    simp only [Rd.ite_apply] at h8
    split at h8
    · cases h8
    · obtain ⟨data, b5, h9, h10⟩ := Rd.bind_eq_ok.1 h8
      obtain ⟨Q, b6, h11, h12⟩ := Rd.bind_eq_ok.1 h10
      simp only [willSync, Bool.false_and, Bool.false_eq_true, if_false] at h12
      cases h12
      rw [Props.onSlice] at h11
      split at h11
      · rename_i hh
        cases h11
        exact willLoop_format _ _ _ _ _ rfl hh
      · cases h11

theorem bodyRead_connect {h : FixedHeader} {b r : Bytes} {c : Connect}
    (hb : Packet.bodyRead h b = .ok (.connect c, r)) : Connect.read b = .ok (c, r) := by
  obtain ⟨t, f, n⟩ := h
  cases t
  all_goals first
    | (cases hb; done)
    | (obtain ⟨x, b1, h1, h2⟩ := Rd.bind_eq_ok.1 hb; cases h2; done)
    | (obtain ⟨x, b1, h1, h2⟩ := Rd.bind_eq_ok.1 hb; cases h2; exact h1)

theorem read_not_format {bs rest : Bytes} {c : Connect} (h : Packet.read bs = (.ok (.connect c), rest)) :
    ¬ WillWithFormat (.connect c) := by
  rintro ⟨w, hw, hf⟩
  apply hf
  rw [Packet.read] at h
  split at h
  · simp at h
  · split at h
    · simp at h
    · rename_i hd hl _ _
      have h := congrArg Prod.fst h
      simp only at h
      split at h
      · rename_i p hp
        cases h
        rw [Packet.readPacket] at hp
        split at hp
        · rename_i p' b' hb
          cases hp
          have h1 := bodyRead_connect hb
          rw [Connect.read] at h1
          obtain ⟨pr, b2, h3, h4⟩ := Rd.bind_eq_ok.1 h1
          simp only [Rd.ite_apply] at h4
          split at h4
          · cases h4
          · obtain ⟨u, b3, h5, h6⟩ := Rd.bind_eq_ok.1 h4
            obtain ⟨fl, b4, h7, h8⟩ := Rd.bind_eq_ok.1 h6
            obtain ⟨ka, b5, h9, h10⟩ := Rd.bind_eq_ok.1 h8
            obtain ⟨P, b6, h11, h12⟩ := Rd.bind_eq_ok.1 h10
            obtain ⟨cid, b7, h13, h14⟩ := Rd.bind_eq_ok.1 h12
            simp only [Rd.ite_apply] at h14
            split at h14
            · obtain ⟨w', b8, h15, h16⟩ := Rd.bind_eq_ok.1 h14
              have hw' : c.lastWill = some w' := by
                simp only [Rd.pure_apply, Rd.ite_apply, Rd.bind_apply] at h16
                repeat' (split at h16)
                all_goals first
                  | (cases h16; done)
                  | (cases h16; rfl)
              rw [hw'] at hw
              cases hw
              exact will_read_format h15
            · exfalso
              have hw' : c.lastWill = none := by
                simp only [Rd.pure_apply, Rd.ite_apply, Rd.bind_apply] at h14
                repeat' (split at h14)
                all_goals first
                  | (cases h14; done)
                  | (cases h14; rfl)
              rw [hw'] at hw
              cases hw
        · cases hp
      · cases h

/-! ### Each class fails -/

variable {p : Packet} (wf : WF p) (hf : p.bodyWireLen ≤ 268435455)
include wf hf

theorem emptyAuth_write_fails (h : EmptyAuthData p) {bs : Bytes} (hw : p.write = .ok bs) :
    Packet.read bs ≠ (.ok p, []) ∧ Packet.asyncRead bs ≠ .ok (p, []) := by
  rcases emptyAuth_cases wf h with ⟨c, rfl, e⟩ | ⟨c, rfl, e⟩ | ⟨a, rfl, e⟩
  · obtain ⟨tail, h1, hS, hl⟩ := connect_strict wf hf e
    rw [h1] at hw
    cases hw
    refine ⟨fun hr => ?_, fun hr => ?_⟩
    · have := Packet.read_exact hf hr
      omega
    · exact Props.noAuth_ne e (connect_asyncRead_props hS hf hr).symm
  · obtain ⟨h1, h2, h3⟩ := connAck_strict wf hf e
    rw [h1] at hw
    cases hw
    have hl : (boolBytes c.sessionPresent).length = 1 := by cases c.sessionPresent <;> rfl
    refine ⟨fun hr => ?_, fun hr => ?_⟩
    · have h4 := Packet.read_exact hf hr
      have := vbi_length h3
      simp only [List.length_append, List.length_cons, List.length_nil, h2, hl, this] at h4
      simp only [Packet.bodyWireLen, ConnAck.wireLen] at h4
      omega
    · have h4 := Packet.asyncRead_connAck_exact hf h3 wf.1 hr
      simp only [List.length_append, List.length_cons, List.length_nil, h2] at h4
      omega
  · have e1 : (Packet.auth a).write = (Packet.auth { a with props := a.props.noAuth }).write := by
      simp only [Packet.write, Packet.lenWrite, Packet.bodyWireLen, Auth.wireLen, Packet.bodyWrite,
        Auth.write, Props.noAuth_skip e, Props.noAuth_wireLen e]
      rfl
    have hb : BodyOk (.auth { a with props := a.props.noAuth }) :=
      ⟨⟨wf.1, Props.noAuth_wf wf.2⟩,
        by simpa only [Packet.bodyWireLen, Auth.wireLen, Props.noAuth_wireLen e] using hf,
        fun P hP => by obtain rfl := List.mem_singleton.1 hP; exact Props.noAuth_nonempty⟩
    rw [e1, hb.write_frame] at hw
    cases hw
    have r1 := hb.read_frame (fun h => h) (fun h => h) publishOrder_perm []
    have r2 := hb.asyncRead_frame (fun h => h) (fun h => h) publishOrder_perm []
    rw [List.append_nil] at r1 r2
    rw [r1, r2]
    refine ⟨fun h => ?_, fun h => ?_⟩
    · have := congrArg (fun x => match x.1 with | .ok (Packet.auth a) => a.props | _ => .empty) h
      exact Props.noAuth_ne e this
    · have := congrArg (fun x => match x with | .ok (Packet.auth a, _) => a.props | _ => .empty) h
      exact Props.noAuth_ne e this

theorem emptyAuth_asyncWrite_fails (h : EmptyAuthData p) (ha : ¬ HasAssignedId p) {bs : Bytes} {n : Nat}
    (hw : p.asyncWrite = .ok (bs, n)) :
    Packet.read bs ≠ (.ok p, []) ∧ Packet.asyncRead bs ≠ .ok (p, []) := by
  have no : ∀ (P Q : Props), P ∈ propSets p → Q.val .assignedClientIdentifier = P.val .assignedClientIdentifier →
      Q.val .assignedClientIdentifier = none := by
    intro P Q hP e
    rw [e]
    exact Classical.byContradiction fun h => ha ⟨P, hP, h⟩
  rcases emptyAuth_cases wf h with ⟨c, rfl, e⟩ | ⟨c, rfl, e⟩ | ⟨a, rfl, e⟩
  · have e1 : (Packet.connect c).asyncWrite = (Packet.connect { c with props := c.props.noAuth }).asyncWrite := by
      simp only [Packet.asyncWrite, Packet.lenAsyncWrite, Packet.bodyWireLen, Connect.wireLen,
        Packet.bodyAsyncWrite, Connect.asyncWrite, Props.noAuth_asyncWrite e, Props.noAuth_wireLen e]
      rfl
    have hb : BodyOk (.connect { c with props := c.props.noAuth }) := by
      refine ⟨⟨Props.noAuth_wf wf.1, wf.2⟩, ?_, ?_⟩
      · simpa only [Packet.bodyWireLen, Connect.wireLen, Props.noAuth_wireLen e] using hf
      · intro P hP
        simp only [propSets, List.mem_cons] at hP
        rcases hP with rfl | hP
        · exact Props.noAuth_nonempty
        · cases hw : c.lastWill with
          | none => rw [hw] at hP; cases hP
          | some w =>
            rw [hw] at hP
            obtain rfl := List.mem_singleton.1 hP
            intro e
            exact absurd ((wf.2.2.1 w hw).1.listed _ (by rw [e]; simp)) (by decide)
    have hn : ¬ HasAssignedId (.connect { c with props := c.props.noAuth }) := by
      rintro ⟨P, hP, hne⟩
      simp only [propSets, List.mem_cons] at hP
      rcases hP with rfl | hP
      · exact hne (no c.props _ (by simp [propSets]) rfl)
      · exact hne (no P P (by simp only [propSets, List.mem_cons]; exact .inr hP) rfl)
    obtain ⟨m, h2, -⟩ := hb.asyncWrite_frame hn
    rw [e1, h2] at hw
    cases hw
    have r2 := hb.asyncRead_frame (fun h => h) (fun h => h) (.refl _) []
    rw [List.append_nil] at r2
    refine ⟨fun h => ?_, fun h => ?_⟩
    · have r1 := hb.read_frame
        (show ¬ WillWithFormat (.connect c) from read_not_format h) (fun h => h) (.refl _) []
      rw [List.append_nil, h] at r1
      have := congrArg (fun x => match x.1 with | .ok (Packet.connect a) => a.props | _ => .empty) r1
      exact Props.noAuth_ne e this.symm
    · rw [r2] at h
      have := congrArg (fun x => match x with | .ok (Packet.connect a, _) => a.props | _ => .empty) h
      exact Props.noAuth_ne e this
  · have e1 : (Packet.connAck c).asyncWrite = (Packet.connAck { c with props := c.props.noAuth }).asyncWrite := by
      simp only [Packet.asyncWrite, Packet.lenAsyncWrite, Packet.bodyWireLen, ConnAck.wireLen,
        Packet.bodyAsyncWrite, ConnAck.asyncWrite, Props.noAuth_asyncWrite e, Props.noAuth_wireLen e]
      rfl
    have hb : BodyOk (.connAck { c with props := c.props.noAuth }) :=
      ⟨⟨wf.1, Props.noAuth_wf wf.2⟩,
        by simpa only [Packet.bodyWireLen, ConnAck.wireLen, Props.noAuth_wireLen e] using hf,
        fun P hP => by obtain rfl := List.mem_singleton.1 hP; exact Props.noAuth_nonempty⟩
    have hn : ¬ HasAssignedId (.connAck { c with props := c.props.noAuth }) := by
      rintro ⟨P, hP, hne⟩
      obtain rfl := List.mem_singleton.1 hP
      exact hne (no c.props _ (by simp [propSets]) rfl)
    obtain ⟨m, h2, -⟩ := hb.asyncWrite_frame hn
    rw [e1, h2] at hw
    cases hw
    have r1 := hb.read_frame (fun h => h) (fun h => h) (.refl _) []
    have r2 := hb.asyncRead_frame (fun h => h) (fun h => h) (.refl _) []
    rw [List.append_nil] at r1 r2
    rw [r1, r2]
    refine ⟨fun h => ?_, fun h => ?_⟩
    · have := congrArg (fun x => match x.1 with | .ok (Packet.connAck a) => a.props | _ => .empty) h
      exact Props.noAuth_ne e this
    · have := congrArg (fun x => match x with | .ok (Packet.connAck a, _) => a.props | _ => .empty) h
      exact Props.noAuth_ne e this
  · have e1 : (Packet.auth a).asyncWrite = (Packet.auth { a with props := a.props.noAuth }).asyncWrite := by
      simp only [Packet.asyncWrite, Packet.lenAsyncWrite, Packet.bodyWireLen, Auth.wireLen,
        Packet.bodyAsyncWrite, Auth.asyncWrite, Props.noAuth_asyncWrite e, Props.noAuth_wireLen e]
      rfl
    have hb : BodyOk (.auth { a with props := a.props.noAuth }) :=
      ⟨⟨wf.1, Props.noAuth_wf wf.2⟩,
        by simpa only [Packet.bodyWireLen, Auth.wireLen, Props.noAuth_wireLen e] using hf,
        fun P hP => by obtain rfl := List.mem_singleton.1 hP; exact Props.noAuth_nonempty⟩
    have hn : ¬ HasAssignedId (.auth { a with props := a.props.noAuth }) := by
      rintro ⟨P, hP, hne⟩
      obtain rfl := List.mem_singleton.1 hP
      exact hne (no a.props _ (by simp [propSets]) rfl)
    obtain ⟨m, h2, -⟩ := hb.asyncWrite_frame hn
    rw [e1, h2] at hw
    cases hw
    have r1 := hb.read_frame (fun h => h) (fun h => h) (.refl _) []
    have r2 := hb.asyncRead_frame (fun h => h) (fun h => h) (.refl _) []
    rw [List.append_nil] at r1 r2
    rw [r1, r2]
    refine ⟨fun h => ?_, fun h => ?_⟩
    · have := congrArg (fun x => match x.1 with | .ok (Packet.auth a) => a.props | _ => .empty) h
      exact Props.noAuth_ne e this
    · have := congrArg (fun x => match x with | .ok (Packet.auth a, _) => a.props | _ => .empty) h
      exact Props.noAuth_ne e this

/-- what the streaming writer makes of a CONNACK with an assigned client identifier is too short -/
theorem assignedId_shape (h : HasAssignedId p) {bs : Bytes} {n : Nat}
    (hw : p.asyncWrite = .ok (bs, n)) :
    ∃ items c, p = .connAck c ∧
      bs = 0x20 :: (vbi (Packet.bodyWireLen (.connAck c)) ++ (boolBytes c.sessionPresent ++
        (c.reason.toU8 :: (vbi (c.props.wireLen connAckEntries) ++ items)))) ∧
      items.length < c.props.wireLen connAckEntries := by
  obtain ⟨c, rfl, e⟩ := assignedId_cases wf h
  have shape : ∃ items, bs = 0x20 :: (vbi (Packet.bodyWireLen (.connAck c)) ++ (boolBytes c.sessionPresent ++
        (c.reason.toU8 :: (vbi (c.props.wireLen connAckEntries) ++ items)))) ∧
      items.length < c.props.wireLen connAckEntries := by
    rw [Packet.asyncWrite, Packet.lenAsyncWrite_eq, asyncWrite_vbi hf] at hw
    simp only [Packet.bodyAsyncWrite, ConnAck.asyncWrite, Reason.asyncWrite, AWr.ok_append_ok] at hw
    cases h6 : Props.asyncWrite connAckEntries c.props with
    | error x => rw [h6] at hw; cases hw
    | ok x =>
      obtain ⟨b, k⟩ := x
      have hin : Entry.single .assignedClientIdentifier ∈ connAckEntries := by decide
      have key := Props.asyncWrite_short hin e h6
      generalize Props.wireLen connAckEntries c.props = L at key ⊢
      obtain ⟨items, hi, hl⟩ := key
      rw [h6] at hw
      simp only [AWr.ok_append_ok, Except.ok.injEq, Prod.mk.injEq] at hw
      exact ⟨items, by rw [← hw.1, hi]; simp [Packet.firstByte], hl⟩
  obtain ⟨items, h1, h2⟩ := shape
  exact ⟨items, c, rfl, h1, h2⟩

theorem assignedId_fails (h : HasAssignedId p) {bs : Bytes} {n : Nat}
    (hw : p.asyncWrite = .ok (bs, n)) :
    Packet.read bs ≠ (.ok p, []) ∧ Packet.asyncRead bs ≠ .ok (p, []) := by
  obtain ⟨items, c, rfl, rfl, hl⟩ := assignedId_shape wf hf h hw
  have hm : c.props.wireLen connAckEntries ≤ 268435455 := by
    simp only [Packet.bodyWireLen, ConnAck.wireLen] at hf; omega
  have hb : (boolBytes c.sessionPresent).length = 1 := by cases c.sessionPresent <;> rfl
  refine ⟨fun hr => ?_, fun hr => ?_⟩
  · have h4 := Packet.read_exact hf hr
    have := vbi_length hm
    rw [List.length_append, List.length_cons, List.length_append, hb, this] at h4
    have h5 : Packet.bodyWireLen (.connAck c) = 2 + VarInt.len (c.props.wireLen connAckEntries) +
      c.props.wireLen connAckEntries := rfl
    omega
  · have h4 := Packet.asyncRead_connAck_exact hf hm wf.1 hr
    omega

omit hf in
theorem shortAck_bytes (h : ShortAck p) : ∃ id r, (p.firstByte = 0x50 ∧ r ∈ Reason.pubRec.map Reason.toU8 ∨
      p.firstByte = 0x70 ∧ r ∈ Reason.pubComp.map Reason.toU8) ∧
    p.write = .ok ([p.firstByte, 3] ++ (u16Bytes id ++ [r])) ∧
    ∃ n, p.asyncWrite = .ok ([p.firstByte, 3] ++ (u16Bytes id ++ [r]), n) := by
  cases p with
  | pubRec a =>
    obtain ⟨id, r, P⟩ := a
    obtain ⟨h1, h2⟩ := h
    simp only at h1 h2
    subst h2
    refine ⟨id, r.toU8, .inl ⟨rfl, List.mem_map_of_mem wf.1⟩, ?_, 1 + 1 + 3, ?_⟩
    · have e : Ack.write ⟨id, r, .empty⟩ = .ok (u16Bytes id ++ [r.toU8]) := by
        simp [Ack.write, h1, Ack.noProps, Props.empty, Reason.write]
      have e2 : Ack.wireLen ⟨id, r, .empty⟩ = 3 := by simp [Ack.wireLen, h1, Ack.noProps, Props.empty]
      simp only [Packet.write, Packet.bodyWrite, e, Packet.lenWrite, Packet.bodyWireLen, e2]
      rfl
    · have e : Ack.asyncWrite ⟨id, r, .empty⟩ = .ok (u16Bytes id ++ [r.toU8], 3) := by
        simp [Ack.asyncWrite, h1, Ack.noProps, Props.empty, Reason.asyncWrite]
      have e2 : Ack.wireLen ⟨id, r, .empty⟩ = 3 := by simp [Ack.wireLen, h1, Ack.noProps, Props.empty]
      simp only [Packet.asyncWrite, Packet.bodyAsyncWrite, e, Packet.lenAsyncWrite, Packet.bodyWireLen, e2]
      rfl
  | pubComp a =>
    obtain ⟨id, r, P⟩ := a
    obtain ⟨h1, h2⟩ := h
    simp only at h1 h2
    subst h2
    refine ⟨id, r.toU8, .inr ⟨rfl, List.mem_map_of_mem wf.1⟩, ?_, 1 + 1 + 3, ?_⟩
    · have e : Ack.write ⟨id, r, .empty⟩ = .ok (u16Bytes id ++ [r.toU8]) := by
        simp [Ack.write, h1, Ack.noProps, Props.empty, Reason.write]
      have e2 : Ack.wireLen ⟨id, r, .empty⟩ = 3 := by simp [Ack.wireLen, h1, Ack.noProps, Props.empty]
      simp only [Packet.write, Packet.bodyWrite, e, Packet.lenWrite, Packet.bodyWireLen, e2]
      rfl
    · have e : Ack.asyncWrite ⟨id, r, .empty⟩ = .ok (u16Bytes id ++ [r.toU8], 3) := by
        simp [Ack.asyncWrite, h1, Ack.noProps, Props.empty, Reason.asyncWrite]
      have e2 : Ack.wireLen ⟨id, r, .empty⟩ = 3 := by simp [Ack.wireLen, h1, Ack.noProps, Props.empty]
      simp only [Packet.asyncWrite, Packet.bodyAsyncWrite, e, Packet.lenAsyncWrite, Packet.bodyWireLen, e2]
      rfl
  | _ => exact h.elim

omit wf hf in
theorem shortRead (fb r : UInt8) (id : UInt16)
    (h : fb = 0x50 ∧ r ∈ Reason.pubRec.map Reason.toU8 ∨ fb = 0x70 ∧ r ∈ Reason.pubComp.map Reason.toU8)
    (q : Packet) : Packet.read ([fb, 3] ++ (u16Bytes id ++ [r])) ≠ (.ok q, []) ∧
      Packet.asyncRead ([fb, 3] ++ (u16Bytes id ++ [r])) ≠ .ok (q, []) := by
  rcases h with ⟨rfl, h⟩ | ⟨rfl, h⟩
  · refine ⟨fun e => ?_, fun e => ?_⟩
    · have : Packet.read ([0x50, 3] ++ (u16Bytes id ++ [r])) =
        (.error (.err (.de (.insufficientData 3 4))), []) := rfl
      rw [this] at e
      simp at e
    · have : ∃ x, Packet.asyncRead ([0x50, 3] ++ (u16Bytes id ++ [r])) = .error x := by
        clear e
        obtain ⟨r, hr, rfl⟩ := List.mem_map.1 h
        simp only [Reason.pubRec, List.mem_cons, List.not_mem_nil, or_false] at hr
        rcases hr with rfl | rfl | rfl | rfl | rfl | rfl | rfl | rfl | rfl <;> exact ⟨_, rfl⟩
      obtain ⟨x, hx⟩ := this
      rw [hx] at e
      cases e
  · refine ⟨fun e => ?_, fun e => ?_⟩
    · have : Packet.read ([0x70, 3] ++ (u16Bytes id ++ [r])) =
        (.error (.err (.de (.insufficientData 3 4))), []) := rfl
      rw [this] at e
      simp at e
    · have : Packet.asyncRead ([0x70, 3] ++ (u16Bytes id ++ [r])) = .error (.de (.insufficientData 0 4)) := rfl
      rw [this] at e
      cases e

omit hf in
theorem shortAck_fails (h : ShortAck p) :
    (∀ bs, p.write = .ok bs → Packet.read bs ≠ (.ok p, []) ∧ Packet.asyncRead bs ≠ .ok (p, [])) ∧
    (∀ bs n, p.asyncWrite = .ok (bs, n) →
      Packet.read bs ≠ (.ok p, []) ∧ Packet.asyncRead bs ≠ .ok (p, [])) := by
  obtain ⟨id, r, hr, hw, n, ha⟩ := shortAck_bytes wf h
  have := shortRead _ _ id hr p
  refine ⟨fun bs hb => ?_, fun bs m hb => ?_⟩
  · rw [hw] at hb; cases hb; exact this
  · rw [ha] at hb; cases hb; exact this

theorem manyTopics_fails (h : ManyTopics p) :
    (∀ bs, p.write = .ok bs → Packet.asyncRead bs ≠ .ok (p, [])) ∧
    (∀ bs n, p.asyncWrite = .ok (bs, n) → Packet.asyncRead bs ≠ .ok (p, [])) := by
  cases p with
  | subscribe s =>
    have hb : BodyOk (.subscribe s) := ⟨wf, hf, fun P hP e => by
      obtain rfl := List.mem_singleton.1 hP
      exact absurd (wf.1.listed _ (by rw [e]; simp)) (by decide)⟩
    have hn : ¬ HasAssignedId (.subscribe s) := by
      rintro ⟨P, hP, e⟩
      obtain rfl := List.mem_singleton.1 hP
      exact absurd (wf.1.listed _ e) (by decide)
    have key : Packet.asyncRead (Packet.frame publishEntries (.subscribe s)) ≠ .ok (.subscribe s, []) := by
      intro hr
      rw [Packet.asyncRead, Packet.frame, Rd.bind_apply, FixedHeader.asyncRead_vbi _ _ hf,
        Packet.fromFirstByte_firstByte] at hr
      obtain ⟨⟨s', t'⟩, b, h1, h2⟩ := Rd.bind_eq_ok.1 (show (Rd.map (fun x : Subscribe × Nat => Packet.subscribe x.1)
        (Subscribe.asyncRead (Packet.bodyWireLen (.subscribe s)))) _ = _ from hr)
      simp only [Rd.pure_apply, Except.ok.injEq, Prod.mk.injEq, Packet.subscribe.injEq] at h2
      rw [h2.1] at h1
      clear h2
      have hS := hb.subscribeSect
      have hl := hb.length (ord := publishEntries) (.refl _)
      cases hs : s.topics with
      | nil => exact wf.2.1 hs
      | cons x ts =>
        obtain ⟨t1, o1⟩ := x
        have ht := wf.2.2 (t1, o1) (by rw [hs]; simp)
        simp only [Packet.bodyBytes, Subscribe.asyncRead, List.append_assoc,
          Rd.bind_ok (aU16_u16Bytes _ _), Rd.bind_ok (hS.asyncRead _), Rd.bufLen_bind, Subscribe.topicBytes,
          Subscribe.asyncTopics, hs] at h1 hl
        simp only [Rd.bind_apply, List.flatMap_cons, List.append_assoc,
          asyncReadStr_strBytes _ _ ht, List.singleton_append, SubOptions.asyncRead_toByte, List.length_append] at h1
        rw [if_pos (by simp at hl ⊢; omega)] at h1
        simp only [Rd.pure_apply, Except.ok.injEq, Prod.mk.injEq] at h1
        have h3 := congrArg Subscribe.topics h1.1.1
        rw [hs] at h3
        simp only [List.cons.injEq, true_and] at h3
        exact h (by rw [hs, ← h3]; rfl)
    refine ⟨fun bs hw => ?_, fun bs m hw => ?_⟩
    · rw [hb.write_frame] at hw; cases hw; exact key
    · obtain ⟨m, e, -⟩ := hb.asyncWrite_frame hn
      rw [e] at hw; cases hw; exact key
  | _ => exact h.elim

end Mqrstt
