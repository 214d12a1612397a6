import Verif.Proof.Session
/-!
# The invariant linking the client's state to the ledger
-/

namespace Mqrstt
open Spec

/-- packets that client calls produce -/
def Submittable : Packet → Prop
  | .publish p => p.dup = false ∧ (p.pkid = none ↔ p.qos = .atMostOnce)
  | .subscribe _ => True
  | .unsubscribe _ => True
  | .disconnect _ => True
  | _ => False

/-- the state of a live network and the ledger -/
structure Live (r : UInt16) (q : List Packet) (st : State) (l : Ledger) : Prop where
  queued : ∃ failed : List UInt16, ∀ a, l.queued.count a = (q.filterMap Packet.ident).count a + failed.count a
  qok : ∀ p ∈ q, Submittable p
  order : st.order = l.publishIds
  stored : ∀ p ∈ l.unacked, ∃ id, p.pkid = some id ∧ p.qos ≠ .atMostOnce ∧ st.stored id = some p
  only : ∀ id p, st.stored id = some p → p ∈ l.unacked ∧ p.pkid = some id
  rel : ∀ a, st.rel.count a = l.accepted.count a
  sub : ∀ a, st.sub.count a = l.subscribes.count a
  unsub : ∀ a, st.unsub.count a = l.unsubscribes.count a
  slots : st.slots.length = r.toNat
  incoming : st.incoming.Pairwise (· < ·)

/-- `n`: send maximum, `r`: receive maximum; `lost`: the identifiers lost so far -/
structure Inv (n r : UInt16) (clean : Bool) (s : Sys) (l : Ledger) (lost : List UInt16) : Prop where
  cap : s.pool.cap = n.toNat
  cnt : ∀ a, s.pool.queue.count a + l.ids.count a + lost.count a = (Pool.new n).queue.count a
  calling : ∀ a, l.calling.count a = (s.pending.filterMap Packet.ident).count a
  pok : ∀ p ∈ s.pending, Submittable p
  clean : s.handler.cleanStart = clean
  live : s.alive = true → Live r s.queue s.handler.state l

/-! ## counting -/

def ind (o : Option UInt16) (a : UInt16) : Nat := if o = some a then 1 else 0

theorem count_toList (o : Option UInt16) (a : UInt16) : o.toList.count a = ind o a := by
  cases o with
  | none => rfl
  | some b => simp [ind, List.count_cons]

theorem count_without (l : List UInt16) (o : Option UInt16) (a : UInt16) :
    (Ledger.without l o).count a = l.count a - ind o a := by
  cases o with
  | none => simp [Ledger.without, ind]
  | some b => simp [Ledger.without, ind, List.count_erase]

theorem count_erase' (l : List UInt16) (b a : UInt16) :
    (l.erase b).count a = l.count a - ind (some b) a := by
  simp [ind, List.count_erase]

theorem count_single (b a : UInt16) : [b].count a = ind (some b) a := by
  simp [ind, List.count_cons]

theorem ind_self (b : UInt16) : ind (some b) b = 1 := by simp [ind]

theorem count_filterMap_cons (f : α → Option UInt16) (x : α) (xs : List α) (a : UInt16) :
    ((x :: xs).filterMap f).count a = ind (f x) a + (xs.filterMap f).count a := by
  cases h : f x with
  | none => simp [List.filterMap_cons, h, ind]
  | some b => simp [List.filterMap_cons, h, ind, List.count_cons]; omega

theorem count_eraseIdx (f : α → Option UInt16) : ∀ (l : List α) (k : Nat) (x : α), l[k]? = some x →
    ∀ a, (l.filterMap f).count a = ((l.eraseIdx k).filterMap f).count a + ind (f x) a
  | [], k, x, h => by simp at h
  | y :: ys, 0, x, h => by
    intro a
    simp only [List.getElem?_cons_zero, Option.some.injEq] at h
    subst h
    rw [count_filterMap_cons, List.eraseIdx_cons_zero]; omega
  | y :: ys, k + 1, x, h => by
    intro a
    simp only [List.getElem?_cons_succ] at h
    rw [count_filterMap_cons, List.eraseIdx_cons_succ, count_filterMap_cons, count_eraseIdx f ys k x h a]
    omega

theorem count_ids (l : Ledger) (a : UInt16) :
    l.ids.count a = l.calling.count a + l.queued.count a + l.publishIds.count a + l.accepted.count a
      + l.subscribes.count a + l.unsubscribes.count a := by
  simp only [Ledger.ids, List.count_append]

theorem publishIds_append (l : Ledger) (p : Publish) (a : UInt16) :
    ({ l with unacked := l.unacked ++ [p] } : Ledger).publishIds.count a
      = l.publishIds.count a + ind p.pkid a := by
  simp only [Ledger.publishIds, List.filterMap_append, List.count_append]
  rw [count_filterMap_cons]
  simp

theorem filterMap_filter_ne (l : List Publish) (id : UInt16) :
    (l.filter (fun p => p.pkid ≠ some id)).filterMap (·.pkid)
      = (l.filterMap (·.pkid)).filter (fun a => a ≠ id) := by
  induction l with
  | nil => rfl
  | cons p ps ih =>
    cases h : p.pkid with
    | none =>
      rw [List.filter_cons_of_pos (by simp [h]), List.filterMap_cons_none h, List.filterMap_cons_none h, ih]
    | some b =>
      by_cases hb : b = id
      · subst hb
        rw [List.filter_cons_of_neg (by simp [h]), List.filterMap_cons_some h, List.filter_cons_of_neg (by simp), ih]
      · rw [List.filter_cons_of_pos (by simp [h, hb]), List.filterMap_cons_some h, List.filterMap_cons_some h,
          List.filter_cons_of_pos (by simp [hb]), ih]

/-! ## consequences -/

namespace Inv
variable {n r : UInt16} {clean : Bool} {s : Sys} {l : Ledger} {lost : List UInt16}

theorem perm (h : Inv n r clean s l lost) :
    (s.pool.queue ++ l.ids ++ lost).Perm (Pool.new n).queue := by
  rw [List.perm_iff_count]
  intro a
  rw [← h.cnt a, List.count_append, List.count_append]

theorem length (h : Inv n r clean s l lost) :
    s.pool.queue.length + l.ids.length + lost.length = n.toNat := by
  have := h.perm.length_eq
  rw [Pool.length_new] at this
  simpa [Nat.add_assoc] using this

theorem le_one (h : Inv n r clean s l lost) (a : UInt16) :
    s.pool.queue.count a + (l.calling.count a + l.queued.count a + l.publishIds.count a + l.accepted.count a
      + l.subscribes.count a + l.unsubscribes.count a) + lost.count a ≤ 1 := by
  have := h.cnt a
  rw [count_ids] at this
  have := Pool.count_new n a
  omega

theorem publishIds_erase (h : Inv n r clean s l lost) (id : UInt16) :
    ({ l with unacked := l.unacked.filter (·.pkid ≠ some id) } : Ledger).publishIds = l.publishIds.erase id := by
  have hnd : l.publishIds.Nodup := by
    rw [List.nodup_iff_count]; intro a; have := h.le_one a; omega
  rw [hnd.erase_eq_filter]
  simp only [Ledger.publishIds, filterMap_filter_ne]
  congr 1
  funext a
  simp [bne]
  rfl

end Inv

theorem Inv.start (n r : UInt16) (m : Nat) (clean : Bool) :
    Inv n r clean (Sys.init n r m clean) Ledger.empty [] where
  cap := rfl
  cnt := by intro a; simp [Sys.init, Sys.pool, State.new, Ledger.ids, Ledger.empty, Ledger.publishIds]
  calling := by intro a; rfl
  pok := by intro p hp; exact absurd hp (by simp [Sys.init])
  clean := rfl
  live := fun _ => {
    queued := ⟨[], fun a => rfl⟩
    qok := by intro p hp; exact absurd hp (by simp [Sys.init])
    order := rfl
    stored := by intro p hp; exact absurd hp (by simp [Ledger.empty])
    only := by
      intro id p h
      obtain ⟨i, hi, hs⟩ := State.stored_some h
      simp only [Sys.init, State.new, List.getElem?_replicate] at hs
      split at hs <;> simp at hs
    rel := fun a => rfl
    sub := fun a => rfl
    unsub := fun a => rfl
    slots := by simp [Sys.init, State.new]
    incoming := by simp [Sys.init, State.new] }

end Mqrstt
