import Verif.Spec.Session
/-!
# Lemmas about the pool, the identifier sets and the slots
-/

namespace Mqrstt

/-! ## the pool -/

theorem Pool.mem_new (n id : UInt16) :
    id ∈ (Pool.new n).queue ↔ 1 ≤ id.toNat ∧ id.toNat ≤ n.toNat := by
  have hn := n.toNat_lt
  simp only [Pool.new, List.mem_map, List.mem_range]
  constructor
  · rintro ⟨i, hi, rfl⟩
    have : (UInt16.ofNat (i + 1)).toNat = i + 1 := by
      rw [UInt16.toNat_ofNat']; exact Nat.mod_eq_of_lt (by omega)
    omega
  · rintro ⟨h1, h2⟩
    refine ⟨id.toNat - 1, by omega, ?_⟩
    rw [Nat.sub_add_cancel h1, UInt16.ofNat_toNat]

theorem Pool.nodup_new (n : UInt16) : (Pool.new n).queue.Nodup := by
  have hn := n.toNat_lt
  simp only [Pool.new]
  rw [List.nodup_iff_pairwise_ne, List.pairwise_map]
  refine List.Pairwise.imp_of_mem ?_ (List.nodup_iff_pairwise_ne.mp List.nodup_range)
  intro a b ha hb hab h
  rw [List.mem_range] at ha hb
  have h1 : (UInt16.ofNat (a + 1)).toNat = (UInt16.ofNat (b + 1)).toNat := by rw [h]
  rw [UInt16.toNat_ofNat', UInt16.toNat_ofNat', Nat.mod_eq_of_lt (by omega), Nat.mod_eq_of_lt (by omega)] at h1
  omega

theorem Pool.count_new (n a : UInt16) : (Pool.new n).queue.count a ≤ 1 :=
  List.nodup_iff_count.mp (Pool.nodup_new n) a

theorem Pool.length_new (n : UInt16) : (Pool.new n).queue.length = n.toNat := by
  simp [Pool.new]

/-! ## sets of identifiers -/

namespace IdSet

theorem insert_new {id : UInt16} : ∀ {l : List UInt16}, id ∉ l →
    (insert id l).2 = true ∧ ∀ a, (insert id l).1.count a = l.count a + if a = id then 1 else 0
  | [], _ => by
    refine ⟨rfl, fun a => ?_⟩
    simp only [insert, List.count_cons, List.count_nil, beq_iff_eq]
    simp only [eq_comm]
  | x :: xs, h => by
    simp only [List.mem_cons, not_or] at h
    have ih := insert_new (l := xs) h.2
    unfold insert
    split
    · refine ⟨rfl, fun a => ?_⟩
      simp only [List.count_cons, beq_iff_eq, eq_comm (a := id)]
    · rw [if_neg h.1]
      refine ⟨ih.1, fun a => ?_⟩
      simp only [List.count_cons, ih.2 a]
      omega

theorem insert_mem {id a : UInt16} : ∀ {l : List UInt16},
    a ∈ (insert id l).1 ↔ a = id ∨ a ∈ l
  | [] => by simp [insert]
  | x :: xs => by
    unfold insert
    split
    · simp
    · split
      · rename_i h; subst h; simp
      · simp only [List.mem_cons, insert_mem (l := xs)]
        constructor <;> rintro (h | h | h) <;> simp [h]

theorem insert_sorted {id : UInt16} : ∀ {l : List UInt16}, l.Pairwise (· < ·) →
    (insert id l).1.Pairwise (· < ·)
  | [], _ => by simp [insert]
  | x :: xs, h => by
    rw [List.pairwise_cons] at h
    unfold insert
    split
    · rename_i hlt
      rw [List.pairwise_cons, List.pairwise_cons]
      refine ⟨fun b hb => ?_, h⟩
      rcases List.mem_cons.mp hb with rfl | hb
      · exact hlt
      · exact UInt16.lt_trans hlt (h.1 b hb)
    · split
      · exact List.pairwise_cons.mpr h
      · rename_i h1 h2
        rw [List.pairwise_cons]
        refine ⟨fun b hb => ?_, insert_sorted h.2⟩
        rcases insert_mem.mp hb with rfl | hb
        · have : ¬ b.toNat < x.toNat := fun hh => h1 (UInt16.lt_iff_toNat_lt.mpr hh)
          have h3 : b.toNat ≠ x.toNat := fun hh => h2 (UInt16.toNat_inj.mp hh)
          exact UInt16.lt_iff_toNat_lt.mpr (by omega)
        · exact h.1 b hb

theorem insert_flag {id : UInt16} : ∀ {l : List UInt16}, l.Pairwise (· < ·) →
    ((insert id l).2 = true ↔ id ∉ l)
  | [], _ => by simp [insert]
  | x :: xs, h => by
    rw [List.pairwise_cons] at h
    have ih := insert_flag (id := id) h.2
    unfold insert
    split
    · rename_i hlt
      simp only [true_iff, List.mem_cons, not_or]
      refine ⟨fun e => ?_, fun hm => ?_⟩
      · subst e; exact absurd hlt (UInt16.lt_irrefl _)
      · exact absurd (UInt16.lt_trans hlt (h.1 id hm)) (UInt16.lt_irrefl _)
    · split
      · rename_i h1 h2; subst h2; simp
      · rename_i h1 h2
        simp only [ih, List.mem_cons, h2, false_or]

end IdSet

/-! ## slots -/

namespace State

theorem slotIndex_some {s : State} {id : UInt16} {i : Nat} (h : s.slotIndex id = some i) :
    id ≠ 0 ∧ i = id.toNat - 1 ∧ i < s.slots.length := by
  unfold slotIndex at h
  split at h
  · exact absurd h (by simp)
  · split at h
    · rename_i h1 h2
      obtain rfl := (Option.some.inj h)
      exact ⟨h1, rfl, h2⟩
    · exact absurd h (by simp)

theorem slotIndex_eq_none {s : State} {id : UInt16} :
    s.slotIndex id = none ↔ id = 0 ∨ s.slots.length < id.toNat := by
  unfold slotIndex
  have h0 : id = 0 ↔ id.toNat = 0 := by
    rw [← UInt16.toNat_inj]; rfl
  split
  · simp [*]
  · split
    · rename_i h1 h2
      simp only [reduceCtorEq, false_iff, not_or]
      exact ⟨h1, by omega⟩
    · rename_i h1 h2
      simp only [true_iff]
      right
      rw [h0] at h1
      omega

theorem slotIndex_congr {s t : State} (h : s.slots.length = t.slots.length) (id : UInt16) :
    s.slotIndex id = t.slotIndex id := by
  unfold slotIndex; rw [h]

theorem stored_congr {s t : State} (h : s.slots = t.slots) (id : UInt16) : s.stored id = t.stored id := by
  unfold stored
  rw [h, slotIndex_congr (s := s) (t := t) (by rw [h]) id]

theorem slotIndex_inj {s : State} {id id' : UInt16} {i : Nat} (h : s.slotIndex id = some i)
    (h' : s.slotIndex id' = some i) : id = id' := by
  obtain ⟨a, b, _⟩ := slotIndex_some h
  obtain ⟨a', b', _⟩ := slotIndex_some h'
  have h0 : id.toNat ≠ 0 := fun e => a (UInt16.toNat_inj.mp (by rw [e]; rfl))
  have h0' : id'.toNat ≠ 0 := fun e => a' (UInt16.toNat_inj.mp (by rw [e]; rfl))
  exact UInt16.toNat_inj.mp (by omega)

theorem stored_set {s t : State} {id : UInt16} {i : Nat} {x : Option Publish}
    (hi : s.slotIndex id = some i) (ht : t.slots = s.slots.set i x) (id' : UInt16) :
    t.stored id' = if id' = id then x else s.stored id' := by
  unfold stored
  have hl : t.slots.length = s.slots.length := by rw [ht, List.length_set]
  rw [slotIndex_congr hl id']
  obtain ⟨_, _, hlt⟩ := slotIndex_some hi
  by_cases h : id' = id
  · subst h
    rw [hi, ht]
    simp only [List.getElem?_set, if_true, hlt]
    simp
  · rw [if_neg h]
    cases e : s.slotIndex id' with
    | none => rfl
    | some j =>
      have hne : i ≠ j := fun hij => h (slotIndex_inj (hij ▸ e) (hij ▸ hi))
      simp only [ht, List.getElem?_set_ne hne]

theorem stored_some {s : State} {id : UInt16} {p : Publish} (h : s.stored id = some p) :
    ∃ i, s.slotIndex id = some i ∧ s.slots[i]? = some (some p) := by
  unfold stored at h
  cases e : s.slotIndex id with
  | none => rw [e] at h; exact absurd h (by simp)
  | some i =>
    rw [e] at h
    simp only at h
    refine ⟨i, rfl, ?_⟩
    cases e2 : s.slots[i]? with
    | none => rw [e2] at h; exact absurd h (by simp)
    | some o => rw [e2] at h; rw [show o = some p from h]

theorem stored_none {s : State} {id : UInt16} {i : Nat} (hi : s.slotIndex id = some i)
    (h : s.stored id = none) : s.slots[i]? = some none := by
  unfold stored at h
  rw [hi] at h
  simp only at h
  obtain ⟨_, _, hlt⟩ := slotIndex_some hi
  rw [List.getElem?_eq_getElem hlt] at h ⊢
  simp only [Option.join_some] at h
  rw [h]

/-- recording a publish: a panic outside the slots, otherwise it is stored last -/
theorem addOutgoingPub_eq {s : State} {id : UInt16} {p : Publish} (h : s.stored id = none) :
    match s.slotIndex id with
    | none => s.addOutgoingPub id p = (s, .error .panic)
    | some i => s.addOutgoingPub id p =
        ({ s with slots := s.slots.set i (some p), order := s.order ++ [id] }, .ok ()) := by
  unfold addOutgoingPub
  cases e : s.slotIndex id with
  | none => rfl
  | some i => simp only [stored_none e h]

/-- removing a publish -/
theorem removeOutgoingPub_eq (s : State) (id : UInt16) :
    (s.slotIndex id = none ∧
      s.removeOutgoingPub id = ({ s with order := s.order.erase id }, .error .panic)) ∨
    (∃ i, s.slotIndex id = some i ∧ s.stored id = none ∧
      s.removeOutgoingPub id = ({ s with order := s.order.erase id }, .ok none)) ∨
    (∃ i p, s.slotIndex id = some i ∧ s.stored id = some p ∧
      s.removeOutgoingPub id =
        ({ s with order := s.order.erase id, slots := s.slots.set i none }, .ok (some p))) := by
  have hc : ∀ o, ({ s with order := o } : State).slotIndex id = s.slotIndex id := fun o => rfl
  unfold removeOutgoingPub
  simp only [hc]
  cases e : s.slotIndex id with
  | none => left; exact ⟨rfl, rfl⟩
  | some i =>
    right
    cases e2 : s.stored id with
    | none =>
      left
      refine ⟨i, rfl, rfl, ?_⟩
      simp only [stored_none e e2]
    | some p =>
      right
      refine ⟨i, p, rfl, rfl, ?_⟩
      obtain ⟨j, hj, hs⟩ := stored_some e2
      rw [e] at hj
      obtain rfl := Option.some.inj hj
      simp only [hs]

end State

/-! ## giving identifiers back -/

namespace Handler

theorem freeAll_open : ∀ (ids : List UInt16) (s : State), s.pool.closed = false →
    s.pool.queue.length + ids.length ≤ s.pool.cap →
    freeAll s ids = ({ s with pool := { s.pool with queue := s.pool.queue ++ ids } }, .ok ())
  | [], s, _, _ => by simp [freeAll]
  | id :: ids, s, hc, hl => by
    simp only [List.length_cons] at hl
    have h1 : s.makePkidAvailable id =
        ({ s with pool := { s.pool with queue := s.pool.queue ++ [id] } }, .ok ()) := by
      simp only [State.makePkidAvailable, Pool.markAvailable, hc, Bool.false_eq_true, if_false]
      rw [if_pos (by omega)]
    simp only [freeAll, h1]
    refine (freeAll_open ids { s with pool := { s.pool with queue := s.pool.queue ++ [id] } } hc ?_).trans ?_
    · simp only [List.length_append, List.length_cons, List.length_nil]; omega
    · simp only [List.append_assoc, List.cons_append, List.nil_append]

theorem freeAll_closed (ids : List UInt16) (s : State) (hc : s.pool.closed = true) :
    freeAll s ids = match ids with
      | [] => (s, .ok ())
      | id :: _ => (s, .error (.err (.packetIdChannelError id))) := by
  cases ids with
  | nil => rfl
  | cons id ids =>
    simp only [freeAll, State.makePkidAvailable, Pool.markAvailable, hc, if_true]

theorem release_open {s : State} {id : UInt16} (hc : s.pool.closed = false)
    (hl : s.pool.queue.length < s.pool.cap) :
    release s id = ({ s with pool := { s.pool with queue := s.pool.queue ++ [id] } }, .ok none) := by
  simp only [release, State.makePkidAvailable, Pool.markAvailable, hc, Bool.false_eq_true, if_false, if_pos hl]

theorem release_closed {s : State} {id : UInt16} (hc : s.pool.closed = true) :
    release s id = (s, .error (.err (.packetIdChannelError id))) := by
  simp only [release, State.makePkidAvailable, Pool.markAvailable, hc, if_true]

end Handler
end Mqrstt
