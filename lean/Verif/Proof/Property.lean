import Verif.Proof.Codes
import Verif.Proof.VarInt
import Verif.Spec.WellFormed
/-! # Lemmas about property sections -/

namespace Mqrstt
open Spec

/-! ## Values -/

/-- the bytes of a value; junk for a subscription identifier that cannot be written -/
def Kind.bytes (k : Kind) (v : k.T) : Bytes :=
  match k.write v with
  | .ok b => b
  | .error _ => []

theorem Kind.write_ok {k : Kind} {v : k.T} (h : ValueOk k v) : k.write v = .ok (k.bytes v) := by
  cases k with
  | var =>
    obtain ⟨bs, e⟩ := VarInt.write_of_le v.toNat h
    simp only [Kind.bytes, Kind.write, e]
  | _ => rfl

theorem Kind.asyncWrite_ok {k : Kind} {v : k.T} (h : ValueOk k v) :
    k.asyncWrite v = .ok (k.bytes v, (k.bytes v).length) := by
  cases k with
  | var =>
    obtain ⟨bs, e⟩ := VarInt.write_of_le v.toNat h
    simp only [Kind.bytes, Kind.write, Kind.asyncWrite, e]
    exact (VarInt.asyncWrite_ok_iff _ _ _).2 ⟨e, rfl⟩
  | bool => simp [Kind.bytes, Kind.write, Kind.asyncWrite]
  | str => simp [Kind.bytes, Kind.write, Kind.asyncWrite]; omega
  | bin => simp [Kind.bytes, Kind.write, Kind.asyncWrite]; omega
  | _ => rfl

theorem Kind.bytes_length {k : Kind} {v : k.T} (h : ValueOk k v) :
    (k.bytes v).length = k.wireLen v := by
  cases k with
  | var =>
    obtain ⟨bs, e⟩ := VarInt.write_of_le v.toNat h
    simp only [Kind.bytes, Kind.write, e, Kind.wireLen]
    exact (VarInt.write_ok_iff _ _ e).2.1
  | bool => simp [Kind.bytes, Kind.write, Kind.wireLen]
  | str => simp [Kind.bytes, Kind.write, Kind.wireLen, strWireLen]
  | bin => simp [Kind.bytes, Kind.write, Kind.wireLen, binWireLen]
  | _ => rfl

theorem Kind.read_bytes {k : Kind} {v : k.T} (h : ValueOk k v) (rest : Bytes) :
    k.read (k.bytes v ++ rest) = .ok (v, rest) := by
  cases k with
  | u8 => exact readU8_cons rest v
  | u16 => exact readU16_u16Bytes rest v
  | u32 => exact readU32_u32Bytes rest v
  | str => exact readStr_strBytes rest v h
  | bin => exact readBin_binBytes rest v h
  | bool => exact readBool_boolBytes rest v
  | qos => exact readQoS_toU8 rest v
  | var =>
    obtain ⟨bs, e⟩ := VarInt.write_of_le v.toNat h
    simp only [Kind.bytes, Kind.write, e, Kind.read]
    rw [Rd.bind_ok ((VarInt.write_ok_iff _ _ e).2.2.2.1 rest)]
    simp

theorem Kind.readUnchecked_bytes {k : Kind} {v : k.T} (h : ValueOk k v) (rest : Bytes) :
    k.readUnchecked (k.bytes v ++ rest) = .ok (v, rest) := by
  cases k with
  | u8 => exact getU8_cons rest v
  | u16 => exact getU16_u16Bytes rest v
  | u32 => exact getU32_u32Bytes rest v
  | _ => exact Kind.read_bytes h rest

theorem Kind.asyncRead_bytes {k : Kind} {v : k.T} (h : ValueOk k v) (rest : Bytes) :
    k.asyncRead (k.bytes v ++ rest) = .ok ((v, (k.bytes v).length), rest) := by
  cases k with
  | u8 => exact asyncReadU8_cons rest v
  | u16 => exact asyncReadU16_u16Bytes rest v
  | u32 => exact asyncReadU32_u32Bytes rest v
  | str =>
    have := asyncReadStr_strBytes rest v h
    simpa [Kind.asyncRead, Kind.bytes, Kind.write] using this
  | bin =>
    have := asyncReadBin_binBytes rest v h
    simpa [Kind.asyncRead, Kind.bytes, Kind.write] using this
  | bool =>
    have := asyncReadBool_boolBytes rest v
    simp [Kind.asyncRead, Kind.bytes, Kind.write, this]
  | qos => exact asyncReadQoS_toU8 rest v
  | var =>
    obtain ⟨bs, e⟩ := VarInt.write_of_le v.toNat h
    simp only [Kind.bytes, Kind.write, e, Kind.asyncRead]
    rw [Rd.bind_ok ((VarInt.write_ok_iff _ _ e).2.2.2.2.1 rest)]
    simp

/-! ## Items: one property on the wire -/

inductive Item where
  | single (p : PropertyType) (v : p.kind.T)
  | subId (v : UInt32)
  | user (k v : Str)

namespace Item

def Ok : Item → Prop
  | single p v => ValueOk p.kind v
  | subId v => v.toNat ≤ 268435455
  | user k v => StrOk k ∧ StrOk v

/-- the entry it belongs to -/
def entry : Item → Entry
  | single p _ => .single p
  | subId _ => .subIdList
  | user _ _ => .user

def body : Item → Bytes
  | single p v => p.kind.bytes v
  | subId v => Kind.bytes .var v
  | user k v => strBytes k ++ strBytes v

def bytes (i : Item) : Bytes := i.entry.wireType.toU8 :: i.body

/-- the effect of the item on the decoded properties -/
def put (P : Props) : Item → Props
  | single p v => P.set p v
  | subId v => { P with subIds := P.subIds ++ [v] }
  | user k v => { P with users := P.users ++ [(k, v)] }

/-- a single-valued property that is not there yet -/
def FreshIn (P : Props) : Item → Prop
  | single p _ => P.val p = none
  | _ => True

def AllFresh (P : Props) : List Item → Prop
  | [] => True
  | i :: is => FreshIn P i ∧ AllFresh (put P i) is

end Item

namespace Props

theorem set_val_same (P : Props) (p : PropertyType) (v : p.kind.T) : (P.set p v).val p = some v := by
  simp [Props.set]

theorem set_val_other (P : Props) {p q : PropertyType} (v : p.kind.T) (h : q ≠ p) :
    (P.set p v).val q = P.val q := by
  simp [Props.set, h]

/-- the items of an entry, in order -/
def entryItems (P : Props) : Entry → List Item
  | .single p => (P.val p).toList.map (Item.single p)
  | .subIdList => P.subIds.map Item.subId
  | .user => P.users.map fun u => Item.user u.1 u.2

def items (P : Props) (order : List Entry) : List Item := order.flatMap P.entryItems

theorem entryItems_entry (P : Props) (e : Entry) : ∀ i ∈ P.entryItems e, i.entry = e := by
  intro i hi
  cases e <;> simp only [entryItems, List.mem_map] at hi <;> obtain ⟨_, _, rfl⟩ := hi <;> rfl

theorem items_entry (P : Props) (order : List Entry) : ∀ i ∈ P.items order, i.entry ∈ order := by
  intro i hi
  obtain ⟨e, he, hi⟩ := List.mem_flatMap.1 hi
  rw [entryItems_entry P e i hi]; exact he

theorem entryItems_ok {es : List Entry} {P : Props} (h : PropsWF es P) (e : Entry) :
    ∀ i ∈ P.entryItems e, i.Ok := by
  intro i hi
  cases e with
  | single p =>
    simp only [entryItems, List.mem_map, Option.mem_toList] at hi
    obtain ⟨v, hv, rfl⟩ := hi
    exact h.values p v hv
  | subIdList =>
    simp only [entryItems, List.mem_map] at hi
    obtain ⟨v, hv, rfl⟩ := hi
    exact h.ids v hv
  | user =>
    simp only [entryItems, List.mem_map] at hi
    obtain ⟨v, hv, rfl⟩ := hi
    exact h.users v hv

theorem items_ok {es : List Entry} {P : Props} (h : PropsWF es P) (order : List Entry) :
    ∀ i ∈ P.items order, i.Ok := by
  intro i hi
  obtain ⟨e, _, hi⟩ := List.mem_flatMap.1 hi
  exact entryItems_ok h e i hi

/-! ### Decoding the items of a property set gives it back -/

/-- copying an entry of `P` into `Q` -/
def copyEntry (P Q : Props) (e : Entry) : Props := (P.entryItems e).foldl Item.put Q

theorem copyEntry_single_val (P Q : Props) (p q : PropertyType) :
    (copyEntry P Q (.single p)).val q =
      if q = p ∧ (P.val p).isSome then P.val q else Q.val q := by
  unfold copyEntry entryItems
  cases h : P.val p with
  | none => simp [h]
  | some v =>
    simp only [h, Option.toList_some, List.map_cons, List.map_nil, List.foldl_cons, List.foldl_nil,
      Item.put]
    by_cases hq : q = p
    · subst hq; simp [set_val_same, h]
    · simp [set_val_other _ _ hq, hq]

theorem foldl_put_subIds (l : List UInt32) (Q : Props) :
    (l.map Item.subId).foldl Item.put Q = { Q with subIds := Q.subIds ++ l } := by
  induction l generalizing Q with
  | nil => simp
  | cons a l ih => simp [ih, Item.put]

theorem foldl_put_users (l : List (Str × Str)) (Q : Props) :
    (l.map fun u => Item.user u.1 u.2).foldl Item.put Q = { Q with users := Q.users ++ l } := by
  induction l generalizing Q with
  | nil => simp
  | cons a l ih => simp [ih, Item.put]

theorem copyEntry_val (P Q : Props) (e : Entry) (q : PropertyType) :
    (copyEntry P Q e).val q =
      if e = .single q ∧ (P.val q).isSome then P.val q else Q.val q := by
  cases e with
  | single p =>
    rw [copyEntry_single_val]
    by_cases h : q = p
    · subst h; simp
    · have : ¬ (p = q) := fun e => h e.symm
      simp [h, this]
  | subIdList => simp [copyEntry, entryItems, foldl_put_subIds]
  | user => simp [copyEntry, entryItems, foldl_put_users]

theorem copyEntry_subIds (P Q : Props) (e : Entry) :
    (copyEntry P Q e).subIds = Q.subIds ++ if e = .subIdList then P.subIds else [] := by
  cases e with
  | single p =>
    simp only [copyEntry, entryItems]
    cases P.val p <;> simp [Item.put, Props.set]
  | subIdList => simp [copyEntry, entryItems, foldl_put_subIds]
  | user => simp [copyEntry, entryItems, foldl_put_users]

theorem copyEntry_users (P Q : Props) (e : Entry) :
    (copyEntry P Q e).users = Q.users ++ if e = .user then P.users else [] := by
  cases e with
  | single p =>
    simp only [copyEntry, entryItems]
    cases P.val p <;> simp [Item.put, Props.set]
  | subIdList => simp [copyEntry, entryItems, foldl_put_subIds]
  | user => simp [copyEntry, entryItems, foldl_put_users]

theorem foldl_items (P : Props) (order : List Entry) (Q : Props) :
    (P.items order).foldl Item.put Q = order.foldl (copyEntry P) Q := by
  induction order generalizing Q with
  | nil => rfl
  | cons e order ih =>
    simp only [items, List.flatMap_cons, List.foldl_append, List.foldl_cons]
    exact ih _

theorem foldl_copy_val (P : Props) (order : List Entry) (Q : Props) (q : PropertyType) :
    (order.foldl (copyEntry P) Q).val q =
      if .single q ∈ order ∧ (P.val q).isSome then P.val q else Q.val q := by
  induction order generalizing Q with
  | nil => simp
  | cons e order ih =>
    rw [List.foldl_cons, ih, copyEntry_val]
    by_cases h1 : Entry.single q ∈ order <;> by_cases h2 : e = .single q <;>
      by_cases h3 : (P.val q).isSome <;> simp [h1, h2, h3]
    all_goals (intro h; exact absurd h.symm h2)

theorem foldl_copy_subIds (P : Props) {order : List Entry} (hd : order.Nodup) (Q : Props) :
    (order.foldl (copyEntry P) Q).subIds =
      Q.subIds ++ if .subIdList ∈ order then P.subIds else [] := by
  induction order generalizing Q with
  | nil => simp
  | cons e order ih =>
    rw [List.nodup_cons] at hd
    rw [List.foldl_cons, ih hd.2, copyEntry_subIds]
    by_cases h : e = .subIdList
    · subst h; simp [hd.1]
    · have h' : ¬ Entry.subIdList = e := fun x => h x.symm
      simp [h, h']

theorem foldl_copy_users (P : Props) {order : List Entry} (hd : order.Nodup) (Q : Props) :
    (order.foldl (copyEntry P) Q).users =
      Q.users ++ if .user ∈ order then P.users else [] := by
  induction order generalizing Q with
  | nil => simp
  | cons e order ih =>
    rw [List.nodup_cons] at hd
    rw [List.foldl_cons, ih hd.2, copyEntry_users]
    by_cases h : e = .user
    · subst h; simp [hd.1]
    · have h' : ¬ Entry.user = e := fun x => h x.symm
      simp [h, h']

/-- Decoding the items of a well-formed property set gives the set. -/
theorem decode_items {es : List Entry} {P : Props} (h : PropsWF es P) {order : List Entry}
    (hd : order.Nodup) (hsub : ∀ e ∈ es, e ∈ order) :
    (P.items order).foldl Item.put empty = P := by
  rw [foldl_items]
  apply Props.ext
  · funext q
    rw [foldl_copy_val]
    by_cases hq : P.val q = none
    · simp [hq, empty]
    · have : Entry.single q ∈ order := hsub _ (h.listed q hq)
      simp [this, Option.isSome_iff_ne_none.2 hq]
  · rw [foldl_copy_subIds P hd]
    by_cases hq : P.subIds = []
    · simp [hq, empty]
    · simp [hsub _ (h.listedIds hq), empty]
  · rw [foldl_copy_users P hd]
    by_cases hq : P.users = []
    · simp [hq, empty]
    · simp [hsub _ (h.listedUsers hq), empty]

theorem allFresh_append (P : Props) (a b : List Item) :
    Item.AllFresh P (a ++ b) ↔ Item.AllFresh P a ∧ Item.AllFresh (a.foldl Item.put P) b := by
  induction a generalizing P with
  | nil => simp [Item.AllFresh]
  | cons i a ih => simp [Item.AllFresh, ih, and_assoc]

theorem allFresh_multi (P : Props) (l : List Item) (h : ∀ i ∈ l, ∀ Q, Item.FreshIn Q i) :
    Item.AllFresh P l := by
  induction l generalizing P with
  | nil => trivial
  | cons i l ih =>
    exact ⟨h i (by simp) P, ih _ (fun j hj => h j (by simp [hj]))⟩

theorem entryItems_fresh (P Q : Props) (e : Entry) (h : ∀ p, e = .single p → Q.val p = none) :
    Item.AllFresh Q (P.entryItems e) := by
  cases e with
  | single p =>
    simp only [entryItems]
    cases P.val p with
    | none => trivial
    | some v => exact ⟨h p rfl, trivial⟩
  | subIdList =>
    apply allFresh_multi
    intro i hi Q
    simp only [entryItems, List.mem_map] at hi
    obtain ⟨_, _, rfl⟩ := hi
    trivial
  | user =>
    apply allFresh_multi
    intro i hi Q
    simp only [entryItems, List.mem_map] at hi
    obtain ⟨_, _, rfl⟩ := hi
    trivial

theorem items_fresh (P Q : Props) {order : List Entry} (hd : order.Nodup)
    (h : ∀ p, .single p ∈ order → Q.val p = none) : Item.AllFresh Q (P.items order) := by
  induction order generalizing Q with
  | nil => trivial
  | cons e order ih =>
    rw [List.nodup_cons] at hd
    simp only [items, List.flatMap_cons]
    rw [allFresh_append]
    refine ⟨entryItems_fresh P Q e (fun p hp => h p (by simp [hp])), ?_⟩
    apply ih _ hd.2
    intro p hp
    have : (copyEntry P Q e).val p = Q.val p := by
      rw [copyEntry_val]
      have : e ≠ .single p := by rintro rfl; exact hd.1 hp
      simp [this]
    exact this.trans (h p (by simp [hp]))

/-! ### Writers -/

theorem itemsBytes_length (P : Props) {es : List Entry} (h : PropsWF es P)
    (ha : AuthDataNonempty P) (e : Entry) :
    ((P.entryItems e).flatMap Item.bytes).length = P.entryWireLen e := by
  cases e with
  | single p =>
    by_cases hp : p = .authenticationData
    · subst hp
      simp only [entryItems, entryWireLen]
      cases hv : P.val .authenticationData with
      | none => simp
      | some d =>
        have h1 : d ≠ [] := fun e => ha (by rw [hv, e])
        have h2 := h.auth (by simp [hv])
        have : P.authDataWritten = true := by
          simp only [authDataWritten, hv, Bool.and_eq_true]
          exact ⟨by simpa using h1, Option.isSome_iff_ne_none.2 h2⟩
        have h3 := Kind.bytes_length (h.values _ d hv)
        simp only [Option.toList_some, List.map_cons, List.map_nil, List.flatMap_cons,
          List.flatMap_nil, List.append_nil, this, if_true, Item.bytes, Item.body,
          List.length_cons, h3, Kind.wireLen]
        omega
    · have hgen : P.entryWireLen (.single p) =
          match P.val p with | some v => 1 + p.kind.wireLen v | none => 0 := by
        cases p <;> first | rfl | exact absurd rfl hp
      rw [hgen]
      simp only [entryItems]
      cases hv : P.val p with
      | none => simp
      | some v =>
        have h3 := Kind.bytes_length (h.values _ v hv)
        simp only [Option.toList_some, List.map_cons, List.map_nil, List.flatMap_cons,
          List.flatMap_nil, List.append_nil, Item.bytes, Item.body, List.length_cons, h3]
        omega
  | subIdList =>
    simp only [entryItems, entryWireLen]
    have := h.ids
    generalize P.subIds = l at this
    induction l with
    | nil => rfl
    | cons a l ih =>
      have ha : (Kind.bytes .var a).length = VarInt.len a.toNat :=
        Kind.bytes_length (k := .var) (v := a) (this a (by simp))
      simp only [List.map_cons, List.flatMap_cons, List.length_append, List.sum_cons,
        ih (fun i hi => this i (by simp [hi])), Item.bytes, Item.body, List.length_cons, ha]
      omega
  | user =>
    simp only [entryItems, entryWireLen]
    generalize P.users = l
    induction l with
    | nil => rfl
    | cons a l ih =>
      simp only [List.map_cons, List.flatMap_cons, List.length_append, List.sum_cons, ih,
        Item.bytes, Item.body, List.length_cons, strBytes_length, strWireLen]
      omega

theorem items_length (P : Props) {es : List Entry} (h : PropsWF es P) (ha : AuthDataNonempty P)
    (order : List Entry) :
    ((P.items order).flatMap Item.bytes).length = P.wireLen order := by
  induction order with
  | nil => rfl
  | cons e order ih =>
    simp only [items, List.flatMap_cons, List.flatMap_append, List.length_append, wireLen,
      List.map_cons, List.sum_cons]
    rw [itemsBytes_length P h ha e]
    simp only [items, wireLen] at ih
    omega

theorem syncConcat_ok (l : List Wr) (bs : List Bytes) (h : l = bs.map .ok) :
    syncConcat l = .ok bs.flatten := by
  subst h
  induction bs with
  | nil => rfl
  | cons b bs ih =>
    simp only [syncConcat, List.map_cons, List.foldr_cons, List.flatten_cons] at ih ⊢
    rw [ih]; rfl

theorem asyncConcat_ok (l : List AWr) (bs : List Bytes)
    (h : l = bs.map fun b => .ok (b, b.length)) :
    asyncConcat l = .ok (bs.flatten, bs.flatten.length) := by
  subst h
  induction bs with
  | nil => rfl
  | cons b bs ih =>
    simp only [asyncConcat, List.map_cons, List.foldr_cons, List.flatten_cons] at ih ⊢
    rw [ih]; simp

theorem syncItem_ok (p : PropertyType) (b : Bytes) : syncItem p (.ok b) = .ok (p.toU8 :: b) := rfl

theorem asyncItem_ok (p : PropertyType) (b : Bytes) :
    asyncItem p (.ok (b, b.length)) = .ok (p.toU8 :: b, (p.toU8 :: b).length) := by
  simp [asyncItem, Nat.add_comm]

theorem syncWriteEntry_ok (P : Props) {es : List Entry} (h : PropsWF es P)
    (ha : AuthDataNonempty P) (mode : AuthMode) (e : Entry) :
    P.syncWriteEntry mode e = .ok ((P.entryItems e).flatMap Item.bytes) := by
  cases e with
  | single p =>
    by_cases hp : p = .authenticationData
    · subst hp
      simp only [entryItems, syncWriteEntry]
      cases hv : P.val .authenticationData with
      | none => simp
      | some d =>
        have h1 : d ≠ [] := fun e => ha (by rw [hv, e])
        have h2 := h.auth (by simp [hv])
        have hw : P.authDataWritten = true := by
          simp only [authDataWritten, hv, Bool.and_eq_true]
          exact ⟨by simpa using h1, Option.isSome_iff_ne_none.2 h2⟩
        have hn : (P.val .authenticationMethod).isNone = false := by
          simpa [Option.isSome_iff_ne_none] using h2
        have h3 := Kind.write_ok (h.values _ d hv)
        simp only [Option.toList_some, List.map_cons, List.map_nil, List.flatMap_cons,
          List.flatMap_nil, List.append_nil]
        cases mode <;> simp only [hw, if_true, hn, Bool.false_eq_true, if_false] <;>
          exact (congrArg _ h3).trans (syncItem_ok _ _)
    · have hgen : P.syncWriteEntry mode (.single p) =
          match P.val p with | some v => syncItem p (p.kind.write v) | none => .ok [] := by
        cases p <;> first | rfl | exact absurd rfl hp
      rw [hgen]
      simp only [entryItems]
      cases hv : P.val p with
      | none => simp
      | some v =>
        have h3 := Kind.write_ok (h.values _ v hv)
        simp only [h3, syncItem_ok, Option.toList_some, List.map_cons, List.map_nil,
          List.flatMap_cons, List.flatMap_nil, List.append_nil]
        rfl
  | subIdList =>
    simp only [entryItems, syncWriteEntry]
    rw [List.flatMap_map, List.flatMap_def]
    apply syncConcat_ok
    rw [List.map_map]
    apply List.map_congr_left
    intro i hi
    have h3 := Kind.write_ok (k := .var) (v := i) (h.ids i hi)
    simp only [Kind.write] at h3
    simp only [h3, syncItem_ok, Function.comp]; rfl
  | user =>
    simp only [entryItems, syncWriteEntry]
    rw [List.flatMap_map, List.flatMap_def]
    apply syncConcat_ok
    rw [List.map_map]
    apply List.map_congr_left
    intro u hu
    rfl

theorem syncWrite_eq (P : Props) {es : List Entry} (h : PropsWF es P)
    (ha : AuthDataNonempty P) (order : List Entry) (mode : AuthMode) :
    P.syncWrite es order mode =
      VarInt.write (P.wireLen es) ++ (.ok ((P.items order).flatMap Item.bytes) : Wr) := by
  unfold syncWrite
  congr 1
  rw [syncConcat_ok _ (order.map fun e => (P.entryItems e).flatMap Item.bytes)]
  · simp only [items, List.flatMap_assoc]
    rw [List.flatMap_def (l := order)]
  · rw [List.map_map]
    apply List.map_congr_left
    intro e _
    exact syncWriteEntry_ok P h ha mode e

theorem asyncWriteEntry_ok (P : Props) {es : List Entry} (h : PropsWF es P)
    (ha : AuthDataNonempty P) (hc : P.val .assignedClientIdentifier = none) (e : Entry) :
    ∃ n, P.asyncWriteEntry e = .ok ((P.entryItems e).flatMap Item.bytes, n) ∧
      (P.val .serverReference = none → n = ((P.entryItems e).flatMap Item.bytes).length) := by
  cases e with
  | single p =>
    by_cases hp : p = .authenticationData
    · subst hp
      simp only [entryItems, asyncWriteEntry]
      cases hv : P.val .authenticationData with
      | none => simp
      | some d =>
        have h1 : d ≠ [] := fun e => ha (by rw [hv, e])
        have h2 := h.auth (by simp [hv])
        have hw : P.authDataWritten = true := by
          simp only [authDataWritten, hv, Bool.and_eq_true]
          exact ⟨by simpa using h1, Option.isSome_iff_ne_none.2 h2⟩
        have h3 := Kind.asyncWrite_ok (h.values _ d hv)
        simp only [Option.toList_some, List.map_cons, List.map_nil, List.flatMap_cons,
          List.flatMap_nil, List.append_nil, hw, if_true]
        exact ⟨_, (congrArg _ h3).trans (asyncItem_ok _ _), fun _ => rfl⟩
    · by_cases hp1 : p = .assignedClientIdentifier
      · subst hp1
        exact ⟨0, by simp [asyncWriteEntry, entryItems, hc], by simp [entryItems, hc]⟩
      · by_cases hp2 : p = .serverReference
        · subst hp2
          simp only [entryItems, asyncWriteEntry]
          cases hv : P.val .serverReference with
          | none => simp
          | some v =>
            refine ⟨1, ?_, by simp⟩
            simp [Item.bytes, Item.entry, Entry.wireType, Item.body, Kind.bytes, Kind.write]
        · have hgen : P.asyncWriteEntry (.single p) =
              match P.val p with | some v => asyncItem p (p.kind.asyncWrite v) | none => .ok ([], 0) := by
            cases p <;> first | rfl | contradiction
          rw [hgen]
          simp only [entryItems]
          cases hv : P.val p with
          | none => simp
          | some v =>
            have h3 := Kind.asyncWrite_ok (h.values _ v hv)
            simp only [h3, asyncItem_ok, Option.toList_some, List.map_cons, List.map_nil,
              List.flatMap_cons, List.flatMap_nil, List.append_nil]
            exact ⟨_, rfl, fun _ => rfl⟩
  | subIdList =>
    simp only [entryItems, asyncWriteEntry]
    rw [List.flatMap_map, List.flatMap_def]
    refine ⟨_, ?_, fun _ => rfl⟩
    apply asyncConcat_ok
    rw [List.map_map]
    apply List.map_congr_left
    intro i hi
    have h3 := Kind.asyncWrite_ok (k := .var) (v := i) (h.ids i hi)
    simp only [Kind.asyncWrite] at h3
    simp only [h3, asyncItem_ok, Function.comp]; rfl
  | user =>
    simp only [entryItems, asyncWriteEntry]
    rw [List.flatMap_map, List.flatMap_def]
    refine ⟨_, ?_, fun _ => rfl⟩
    apply asyncConcat_ok
    rw [List.map_map]
    apply List.map_congr_left
    intro u hu
    simp only [Kind.asyncWrite, AWr.ok_append_ok, asyncItem, Function.comp, Item.bytes, Item.body,
      Item.entry, Entry.wireType]
    simp; omega

theorem asyncWrite_eq (P : Props) {es : List Entry} (h : PropsWF es P)
    (ha : AuthDataNonempty P) (hc : P.val .assignedClientIdentifier = none) (order : List Entry) :
    ∃ n, P.asyncWrite order =
      VarInt.asyncWrite (P.wireLen order) ++ (.ok ((P.items order).flatMap Item.bytes, n) : AWr) ∧
      (P.val .serverReference = none → n = ((P.items order).flatMap Item.bytes).length) := by
  have key : ∃ n, asyncConcat (order.map P.asyncWriteEntry) =
      .ok ((P.items order).flatMap Item.bytes, n) ∧
      (P.val .serverReference = none → n = ((P.items order).flatMap Item.bytes).length) := by
    induction order with
    | nil => exact ⟨0, rfl, fun _ => rfl⟩
    | cons e order ih =>
      obtain ⟨n, e1, h1⟩ := asyncWriteEntry_ok P h ha hc e
      obtain ⟨m, e2, h2⟩ := ih
      refine ⟨n + m, ?_, ?_⟩
      · simp only [asyncConcat, List.map_cons, List.foldr_cons, items, List.flatMap_cons,
          List.flatMap_append] at e2 ⊢
        rw [e1, e2]; rfl
      · intro hs
        simp only [items, List.flatMap_cons, List.flatMap_append, List.length_append] at h2 ⊢
        rw [h1 hs, h2 hs]
  obtain ⟨n, e, h⟩ := key
  exact ⟨n, by rw [asyncWrite, e], h⟩

/-! ### Readers -/

theorem select_of_mem {es : List Entry} (hd : (es.map Entry.wireType).Nodup) {e : Entry}
    (h : e ∈ es) : Entry.select es e.wireType = some e := by
  unfold Entry.select
  induction es with
  | nil => cases h
  | cons c cs ih =>
    simp only [List.map_cons, List.nodup_cons, List.mem_map, not_exists, not_and] at hd
    rcases List.mem_cons.1 h with rfl | h'
    · simp
    · have : c.wireType ≠ e.wireType := fun x => hd.1 e h' x.symm
      simp [this, ih hd.2 h']

theorem select_mem {es : List Entry} {t : PropertyType} {e : Entry}
    (h : Entry.select es t = some e) : e ∈ es ∧ e.wireType = t := by
  unfold Entry.select at h
  exact ⟨List.mem_of_find?_eq_some h, by simpa using List.find?_some h⟩

theorem syncReadEntry_item (sp : SyncSpec) (P : Props) (i : Item) (hok : i.Ok)
    (hf : i.FreshIn P) (hi : ∀ p, i.entry = .single p → p ∉ sp.inverted) (rest : Bytes) :
    syncReadEntry sp P i.entry (i.body ++ rest) = .ok (i.put P, rest) := by
  cases i with
  | single p v =>
    have hn : P.val p = none := hf
    simp only [syncReadEntry, Item.entry, Item.body, hi p rfl, if_false, hn, Option.isSome_none,
      Bool.false_eq_true]
    split
    · rw [Rd.bind_ok (Kind.readUnchecked_bytes hok rest)]; rfl
    · rw [Rd.bind_ok (Kind.read_bytes hok rest)]; rfl
  | subId v =>
    simp only [syncReadEntry, Item.entry, Item.body]
    obtain ⟨bs, e⟩ := VarInt.write_of_le v.toNat hok
    have hb : Kind.bytes .var v = bs := by simp only [Kind.bytes, Kind.write, e]
    rw [hb, Rd.bind_ok ((VarInt.write_ok_iff _ _ e).2.2.2.1 rest)]
    simp [Item.put]
  | user k v =>
    simp only [syncReadEntry, Item.entry, Item.body, List.append_assoc]
    rw [Rd.bind_ok (readStr_strBytes _ _ hok.1), Rd.bind_ok (readStr_strBytes _ _ hok.2)]
    rfl

theorem asyncReadEntry_item (P : Props) (i : Item) (hok : i.Ok)
    (hf : i.FreshIn P) (rest : Bytes) :
    asyncReadEntry P i.entry (i.body ++ rest) = .ok ((i.put P, i.body.length), rest) := by
  cases i with
  | single p v =>
    have hn : P.val p = none := hf
    simp only [asyncReadEntry, Item.entry, Item.body, hn, Option.isSome_none,
      Bool.false_eq_true, false_and, if_false]
    rw [Rd.bind_ok (Kind.asyncRead_bytes hok rest)]; rfl
  | subId v =>
    simp only [asyncReadEntry, Item.entry, Item.body]
    obtain ⟨bs, e⟩ := VarInt.write_of_le v.toNat hok
    have hb : Kind.bytes .var v = bs := by simp only [Kind.bytes, Kind.write, e]
    rw [hb, Rd.bind_ok ((VarInt.write_ok_iff _ _ e).2.2.2.2.1 rest)]
    simp [Item.put]
  | user k v =>
    simp only [asyncReadEntry, Item.entry, Item.body, List.append_assoc]
    rw [Rd.bind_ok (asyncReadStr_strBytes _ _ hok.1), Rd.bind_ok (asyncReadStr_strBytes _ _ hok.2)]
    simp [Item.put]

theorem syncLoop_items (sp : SyncSpec) (hd : (sp.entries.map Entry.wireType).Nodup) :
    ∀ (l : List Item) (fuel : Nat) (P : Props), l ≠ [] → l.length ≤ fuel →
      (∀ i ∈ l, i.Ok ∧ i.entry ∈ sp.entries ∧ ∀ p, i.entry = .single p → p ∉ sp.inverted) →
      Item.AllFresh P l →
      syncLoop sp fuel P (l.flatMap Item.bytes) = .ok (l.foldl Item.put P, []) := by
  intro l
  induction l with
  | nil => intro _ _ h; exact absurd rfl h
  | cons i l ih =>
    intro fuel P _ hfuel hall hfresh
    cases fuel with
    | zero => simp at hfuel
    | succ fuel =>
      obtain ⟨hok, hmem, hinv⟩ := hall i (by simp)
      simp only [List.flatMap_cons, Item.bytes, List.cons_append, syncLoop]
      rw [Rd.bind_ok (PropertyType.read_toU8 _ _)]
      simp only [select_of_mem hd hmem]
      rw [Rd.bind_ok (syncReadEntry_item sp P i hok hfresh.1 hinv _)]
      simp only [Rd.bufLen_bind, Rd.ite_apply]
      cases l with
      | nil => simp
      | cons j l =>
        have hlen : ¬ ((j :: l).flatMap Item.bytes).length = 0 := by
          simp [Item.bytes]
        rw [if_neg hlen]
        rw [ih fuel _ (by simp) (by simpa using hfuel) (fun k hk => hall k (by simp [hk])) hfresh.2]
        rfl

theorem asyncLoop_items (es : List Entry) (hd : (es.map Entry.wireType).Nodup) (len : Nat)
    (rest : Bytes) :
    ∀ (l : List Item) (fuel : Nat) (P : Props) (n : Nat), l ≠ [] → l.length ≤ fuel →
      (∀ i ∈ l, i.Ok ∧ i.entry ∈ es) → Item.AllFresh P l →
      n + (l.flatMap Item.bytes).length = len →
      asyncLoop es len fuel P n (l.flatMap Item.bytes ++ rest) =
        .ok ((l.foldl Item.put P, len), rest) := by
  intro l
  induction l with
  | nil => intro _ _ _ h; exact absurd rfl h
  | cons i l ih =>
    intro fuel P n _ hfuel hall hfresh hlen
    cases fuel with
    | zero => simp at hfuel
    | succ fuel =>
      obtain ⟨hok, hmem⟩ := hall i (by simp)
      simp only [List.flatMap_cons, Item.bytes, List.cons_append, asyncLoop, List.append_assoc]
      rw [Rd.bind_ok (PropertyType.asyncRead_toU8 _ _)]
      simp only [select_of_mem hd hmem]
      rw [Rd.bind_ok (asyncReadEntry_item P i hok hfresh.1 _)]
      simp only [Rd.ite_apply]
      simp only [List.flatMap_cons, Item.bytes, List.cons_append, List.length_cons,
        List.length_append] at hlen
      cases l with
      | nil =>
        simp only [List.flatMap_nil, List.length_nil] at hlen
        rw [if_pos (by omega)]
        simp; omega
      | cons j l =>
        have hpos : 0 < ((j :: l).flatMap Item.bytes).length := by simp [Item.bytes]
        rw [if_neg (by omega)]
        exact ih fuel _ _ (by simp) (by simpa using hfuel) (fun k hk => hall k (by simp [hk])) hfresh.2
          (by omega)

theorem items_length_le (P : Props) (order : List Entry) :
    (P.items order).length ≤ ((P.items order).flatMap Item.bytes).length := by
  generalize P.items order = l
  induction l with
  | nil => simp
  | cons i l ih =>
    simp only [List.flatMap_cons, List.length_append, Item.bytes, List.length_cons] at ih ⊢
    omega

theorem items_eq_nil_of_wireLen (P : Props) {es : List Entry} (h : PropsWF es P)
    (ha : AuthDataNonempty P) (order : List Entry) (h0 : P.wireLen order = 0) :
    P.items order = [] := by
  have h1 := items_length P h ha order
  have h2 := items_length_le P order
  exact List.eq_nil_of_length_eq_zero (by omega)

theorem nodup_of_wireType {es : List Entry} (hd : (es.map Entry.wireType).Nodup) : es.Nodup :=
  (List.pairwise_map.1 hd).imp (fun h e => h (congrArg _ e))

theorem wireLen_perm {es order : List Entry} (hp : order.Perm es) (P : Props) :
    P.wireLen order = P.wireLen es := by
  unfold wireLen
  exact (hp.map _).sum_nat

/-- a well-formed property set of length 0 is the empty one -/
theorem eq_empty_of_wireLen {es : List Entry} {P : Props} (h : PropsWF es P)
    (ha : AuthDataNonempty P) (hd : es.Nodup) (h0 : P.wireLen es = 0) : P = empty := by
  have := decode_items h hd (fun e he => he)
  rw [items_eq_nil_of_wireLen P h ha es h0] at this
  exact this.symm

/-- **Buffered property section.** What the writer produced is read back. -/
theorem syncRead_items {es order : List Entry} {sp : SyncSpec} {P : Props} (h : PropsWF es P)
    (ha : AuthDataNonempty P) (hes : sp.entries = es)
    (hd : (es.map Entry.wireType).Nodup) (hp : order.Perm es)
    (hinv : ∀ p ∈ sp.inverted, P.val p = none) {lenBytes : Bytes}
    (hw : VarInt.write (P.wireLen es) = .ok lenBytes) (rest : Bytes)
    (hsplit : sp.split = true ∨ rest = []) :
    syncRead sp (lenBytes ++ ((P.items order).flatMap Item.bytes ++ rest)) = .ok (P, rest) := by
  have hdes : es.Nodup := nodup_of_wireType hd
  have hord : order.Nodup := hp.nodup_iff.2 hdes
  have hread := (VarInt.write_ok_iff _ _ hw).2.2.2.1
  have hlen : ((P.items order).flatMap Item.bytes).length = P.wireLen es := by
    rw [items_length P h ha, wireLen_perm hp]
  have hdec := decode_items h hord (fun e he => hp.symm.subset he)
  unfold syncRead
  rw [Rd.bind_ok (hread _)]
  simp only [Rd.ite_apply]
  split
  · rename_i h0
    have hnil := items_eq_nil_of_wireLen P h ha order (by rw [wireLen_perm hp, h0])
    rw [hnil] at hdec
    simp only [hnil, List.flatMap_nil, List.nil_append, Rd.pure_apply]
    rw [← hdec]; rfl
  · rename_i h0
    have hne : P.items order ≠ [] := by
      intro e; rw [e] at hlen; simp at hlen; omega
    have hall : ∀ i ∈ P.items order, i.Ok ∧ i.entry ∈ sp.entries ∧
        ∀ p, i.entry = .single p → p ∉ sp.inverted := by
      intro i hi
      refine ⟨items_ok h order i hi, by rw [hes]; exact hp.subset (items_entry P order i hi), ?_⟩
      intro p hp' hmem
      have hnone := hinv p hmem
      obtain ⟨e, _, hi'⟩ := List.mem_flatMap.1 hi
      have he := entryItems_entry P e i hi'
      rw [hp'] at he
      subst he
      simp [entryItems, hnone] at hi'
    have hfresh := items_fresh P empty hord (fun _ _ => rfl)
    have hloop := fun fuel hf => syncLoop_items sp (by rw [hes]; exact hd) (P.items order) fuel empty
      hne hf hall hfresh
    rw [hdec] at hloop
    simp only [Rd.bufLen_bind, Rd.ite_apply, List.length_append]
    rw [if_neg (by omega)]
    have hle := items_length_le P order
    have hauth : ¬ ((sp.authCheck && Option.any (fun d => !List.isEmpty d) (P.val .authenticationData)
        && (P.val .authenticationMethod).isNone) = true) := by
      intro hc
      simp only [Bool.and_eq_true] at hc
      obtain ⟨⟨_, h2⟩, h3⟩ := hc
      have : P.val .authenticationData ≠ none := by
        intro e; rw [e] at h2; simp at h2
      have := h.auth this
      simp only [Option.isNone_iff_eq_none] at h3
      contradiction
    split
    · have hsl : onSlice ((P.items order).flatMap Item.bytes)
          (syncLoop sp (((P.items order).flatMap Item.bytes).length + 1) empty) rest = .ok (P, rest) := by
        simp only [onSlice]
        rw [hloop _ (by omega)]
      rw [← hlen, Rd.bind_ok (splitTo_append rest _), Rd.bind_ok hsl, Rd.ite_apply, if_neg hauth]
      rfl
    · rename_i hs
      have : rest = [] := hsplit.resolve_left hs
      subst this
      rw [List.append_nil, Rd.bind_ok (hloop _ (by simp only [List.length_nil]; omega)), Rd.ite_apply,
        if_neg hauth]
      rfl

/-- **Streaming property section.** -/
theorem asyncRead_items {es order : List Entry} {P : Props} (h : PropsWF es P)
    (ha : AuthDataNonempty P) (hd : (es.map Entry.wireType).Nodup) (hp : order.Perm es)
    {lenBytes : Bytes} (hw : VarInt.write (P.wireLen es) = .ok lenBytes) (rest : Bytes) :
    asyncRead es (lenBytes ++ ((P.items order).flatMap Item.bytes ++ rest)) =
      .ok ((P, lenBytes.length + ((P.items order).flatMap Item.bytes).length), rest) := by
  have hdes : es.Nodup := nodup_of_wireType hd
  have hord : order.Nodup := hp.nodup_iff.2 hdes
  have hread := (VarInt.write_ok_iff _ _ hw).2.2.2.2.1
  have hlen : ((P.items order).flatMap Item.bytes).length = P.wireLen es := by
    rw [items_length P h ha, wireLen_perm hp]
  have hdec := decode_items h hord (fun e he => hp.symm.subset he)
  unfold asyncRead
  rw [Rd.bind_ok (hread _)]
  simp only [Rd.ite_apply]
  split
  · rename_i h0
    have hnil := items_eq_nil_of_wireLen P h ha order (by rw [wireLen_perm hp, h0])
    rw [hnil] at hdec
    simp only [hnil, List.flatMap_nil, List.nil_append, Rd.pure_apply, List.length_nil]
    rw [← hdec]; rfl
  · rename_i h0
    have hne : P.items order ≠ [] := by
      intro e; rw [e] at hlen; simp at hlen; omega
    have hle := items_length_le P order
    simp only [Rd.bufLen_bind]
    have hloop := asyncLoop_items es hd (P.wireLen es) rest (P.items order)
      (((P.items order).flatMap Item.bytes ++ rest).length + 1) empty 0 hne
      (by simp only [List.length_append]; omega)
      (fun i hi => ⟨items_ok h order i hi, hp.subset (items_entry P order i hi)⟩)
      (items_fresh P empty hord (fun _ _ => rfl)) (by omega)
    rw [hdec] at hloop
    rw [Rd.bind_ok hloop]
    simp [hlen]

end Props
end Mqrstt
