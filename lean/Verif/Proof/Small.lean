import Verif.Proof.SessionFacts
/-! # How much the session keeps (C91) -/

namespace Mqrstt
open Spec

theorem filled_ids (l : List (Option Publish)) (k : Nat)
    (h : ∀ i p, l[i]? = some (some p) → ∃ id : UInt16, p.pkid = some id ∧ id.toNat = k + i + 1) :
    ((l.filterMap id).filterMap (·.pkid)).Pairwise (fun a b : UInt16 => a.toNat < b.toNat) ∧
      ((l.filterMap id).filterMap (·.pkid)).length = (l.filterMap id).length ∧
      ∀ a ∈ (l.filterMap id).filterMap (·.pkid), k < a.toNat := by
  induction l generalizing k with
  | nil => simp
  | cons x l ih =>
    obtain ⟨h1, h2, h3⟩ := ih (k + 1) (fun i p hi => by
      obtain ⟨a, e, hn⟩ := h (i + 1) p (by simpa using hi)
      exact ⟨a, e, by omega⟩)
    cases x with
    | none =>
      simp only [List.filterMap_cons, id_eq]
      exact ⟨h1, h2, fun a ha => by have := h3 a ha; omega⟩
    | some p =>
      obtain ⟨a, e, hn⟩ := h 0 p (by simp)
      simp only [List.filterMap_cons, id_eq, e, List.pairwise_cons, List.length_cons, h2, List.mem_cons]
      refine ⟨⟨fun b hb => ?_, h1⟩, trivial, ?_⟩
      · have := h3 b hb; omega
      · rintro b (rfl | hb)
        · omega
        · have := h3 b hb; omega

theorem Live.filled {r : UInt16} {q : List Packet} {st : State} {l : Ledger} (h : Live r q st l) :
    (st.slots.filterMap id).length ≤ l.publishIds.length := by
  have hslot : ∀ i p, st.slots[i]? = some (some p) → ∃ id : UInt16, p ∈ l.unacked ∧ p.pkid = some id ∧ id.toNat = i + 1 := by
    intro i p hi
    obtain ⟨hl, -⟩ := List.getElem?_eq_some_iff.1 hi
    have hr : st.slots.length < 65536 := by rw [h.slots]; exact r.toNat_lt
    have hid : (UInt16.ofNat (i + 1)).toNat = i + 1 := by
      rw [UInt16.toNat_ofNat']
      exact Nat.mod_eq_of_lt (by omega)
    have hs : st.stored (UInt16.ofNat (i + 1)) = some p := by
      have h0 : UInt16.ofNat (i + 1) ≠ 0 := by
        intro e
        rw [e] at hid
        simp at hid
      simp only [State.stored, State.slotIndex, if_neg h0, hid, Nat.add_sub_cancel, if_pos hl, hi, Option.join_some]
    obtain ⟨h1, h2⟩ := h.only _ p hs
    exact ⟨_, h1, h2, hid⟩
  obtain ⟨h1, h2, -⟩ := filled_ids st.slots 0 (fun i p hi => by
    obtain ⟨a, -, e, hn⟩ := hslot i p hi
    exact ⟨a, e, by omega⟩)
  rw [← h2]
  have hn : ((st.slots.filterMap id).filterMap (·.pkid)).Nodup := by
    refine h1.imp ?_
    rintro a b hab rfl
    omega
  refine hn.length_le_of_subset fun a ha => ?_
  obtain ⟨p, hp, e⟩ := List.mem_filterMap.1 ha
  obtain ⟨x, hx, rfl⟩ := List.mem_filterMap.1 hp
  obtain ⟨i, hi⟩ := List.mem_iff_getElem?.1 hx
  obtain ⟨id, hm, e', -⟩ := hslot i p hi
  exact List.mem_filterMap.2 ⟨p, hm, e⟩

theorem sorted_length {l : List UInt16} (h : l.Pairwise (· < ·)) : l.length ≤ 65536 := by
  have hn : (l.map UInt16.toNat).Nodup := by
    refine (List.pairwise_map.2 (h.imp ?_))
    intro a b hab e
    have : a.toNat < b.toNat := hab
    omega
  have := hn.length_le_of_subset (l₂ := List.range 65536) (fun a ha => by
    obtain ⟨x, -, rfl⟩ := List.mem_map.1 ha
    exact List.mem_range.2 x.toNat_lt)
  simpa using this

end Mqrstt
