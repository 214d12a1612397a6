import Verif.Spec.Complete
import Verif.Proof.SessionFacts
/-! # One answer of the server (C92) -/

namespace Mqrstt
open Spec

theorem needs_pos (p : Publish) : 1 ≤ needs p := by
  simp only [needs]; split <;> omega

theorem filter_other {ps : List Publish} {id : UInt16} (h : id ∉ ps.filterMap (·.pkid)) :
    ps.filter (·.pkid ≠ some id) = ps := by
  rw [List.filter_eq_self]
  intro p hp
  simp only [ne_eq, decide_not, Bool.not_eq_eq_eq_not, Bool.not_true, decide_eq_false_iff_not]
  exact fun e => h (List.mem_filterMap.2 ⟨p, hp, e⟩)

theorem needs_filter {ps : List Publish} {p : Publish} {id : UInt16} (hn : (ps.filterMap (·.pkid)).Nodup) (hp : p ∈ ps)
    (hid : p.pkid = some id) : ((ps.filter (·.pkid ≠ some id)).map needs).sum + needs p = (ps.map needs).sum := by
  induction ps with
  | nil => simp at hp
  | cons q ps ih =>
    rcases List.mem_cons.1 hp with rfl | hp'
    · simp only [List.filterMap_cons, hid, List.nodup_cons] at hn
      have := filter_other hn.1
      rw [List.filter_cons_of_neg (by simp [hid]), this]
      simp only [List.map_cons, List.sum_cons]
      omega
    · have hm : id ∈ ps.filterMap (·.pkid) := List.mem_filterMap.2 ⟨p, hp', hid⟩
      have hq : q.pkid ≠ some id := by
        intro e
        simp only [List.filterMap_cons, e, List.nodup_cons] at hn
        exact hn.1 hm
      have hn' : (ps.filterMap (·.pkid)).Nodup := by
        cases e : q.pkid with
        | none => simpa [List.filterMap_cons, e] using hn
        | some b => simp only [List.filterMap_cons, e, List.nodup_cons] at hn; exact hn.2
      have := ih hn' hp'
      rw [List.filter_cons_of_pos (by simp [hq])]
      simp only [List.map_cons, List.sum_cons]
      omega

variable {n r : UInt16} {clean : Bool} {s : Sys} {l : Ledger} {lost : List UInt16}

/-- an answer settles one of the debts -/
theorem Inv.owed_less (h : Inv n r clean s l lost) {p : Packet} (hp : IsAnswer l p) :
    owed (l.onReceived p) + 1 = owed l := by
  have hn : l.publishIds.Nodup := by
    rw [List.nodup_iff_count]; intro a; have := h.le_one a; omega
  have erase : ∀ {ids : List UInt16} {id : UInt16}, id ∈ ids → (ids.erase id).length + 1 = ids.length := by
    intro ids id hm
    have := List.length_pos_of_mem hm
    rw [List.length_erase_of_mem hm]
    omega
  cases p with
  | pubAck a =>
    obtain ⟨q, hq, hi, hqos⟩ := hp
    have := needs_filter hn hq hi
    have h1 : needs q = 1 := by simp [needs, hqos]
    simp only [owed, Ledger.onReceived]
    omega
  | pubRec a =>
    obtain ⟨⟨q, hq, hi, hqos⟩, hacc⟩ := hp
    have := needs_filter hn hq hi
    have h1 : needs q = 2 := by simp [needs, hqos]
    simp only [owed, Ledger.onReceived, hacc, if_true, List.length_append, List.length_cons, List.length_nil]
    omega
  | pubComp a =>
    have := erase (show a.id ∈ l.accepted from hp)
    simp only [owed, Ledger.onReceived]
    omega
  | subAck a =>
    have := erase (show a.id ∈ l.subscribes from hp)
    simp only [owed, Ledger.onReceived]
    omega
  | unsubAck a =>
    have := erase (show a.id ∈ l.unsubscribes from hp)
    simp only [owed, Ledger.onReceived]
    omega
  | _ => exact absurd hp (by simp [IsAnswer])

/-- an answer is accepted, shown to the handler, and leaves the network as it is -/
theorem Inv.answer (h : Inv n r clean s l lost) (ha : s.alive = true) (hc : s.pool.closed = false) {p : Packet}
    (hp : IsAnswer l p) :
    ∃ s' reply, s.step (.receive p) = some (s', .received p reply true) := by
  cases p with
  | pubAck a =>
    obtain ⟨q, hq, hi, -⟩ := hp
    obtain ⟨s', hs, -⟩ := h.pubAck_known ha hc (List.mem_filterMap.2 ⟨q, hq, hi⟩)
    exact ⟨s', _, hs⟩
  | pubRec a =>
    obtain ⟨⟨q, hq, hi, -⟩, -⟩ := hp
    obtain ⟨s', hs, -⟩ := h.pubRec_known ha (List.mem_filterMap.2 ⟨q, hq, hi⟩)
    exact ⟨s', _, hs⟩
  | pubComp a =>
    obtain ⟨s', hs, -⟩ := h.pubComp_known ha hc hp
    exact ⟨s', _, hs⟩
  | subAck a =>
    obtain ⟨s', hs, -⟩ := h.subAck_known ha hc hp
    exact ⟨s', _, hs⟩
  | unsubAck a =>
    obtain ⟨s', hs, -⟩ := h.unsubAck_known ha hc hp
    exact ⟨s', _, hs⟩
  | _ => exact absurd hp (by simp [IsAnswer])

theorem owed_zero {l : Ledger} : owed l = 0 ↔ NothingOpen l := by
  constructor
  · intro h
    simp only [owed] at h
    refine ⟨?_, List.length_eq_zero_iff.1 (by omega), List.length_eq_zero_iff.1 (by omega),
      List.length_eq_zero_iff.1 (by omega)⟩
    cases e : l.unacked with
    | nil => rfl
    | cons p ps =>
      have := needs_pos p
      simp only [e, List.map_cons, List.sum_cons] at h
      omega
  · rintro ⟨h1, h2, h3, h4⟩
    simp [owed, h1, h2, h3, h4]

theorem answer_exists {l : Ledger} (hq : ∀ p ∈ l.unacked, ∃ id, p.pkid = some id ∧ p.qos ≠ .atMostOnce) (h : ¬ NothingOpen l) :
    ∃ p, IsAnswer l p := by
  cases h1 : l.unacked with
  | cons p ps =>
    obtain ⟨id, hid, hne⟩ := hq p (by simp [h1])
    cases hqos : p.qos with
    | atMostOnce => exact absurd hqos hne
    | atLeastOnce => exact ⟨.pubAck ⟨id, .success, .empty⟩, p, by simp [h1], hid, hqos⟩
    | exactlyOnce => exact ⟨.pubRec ⟨id, .success, .empty⟩, ⟨p, by simp [h1], hid, hqos⟩, rfl⟩
  | nil =>
    cases h2 : l.accepted with
    | cons id _ => exact ⟨.pubComp ⟨id, .success, .empty⟩, by simp [IsAnswer, h2]⟩
    | nil =>
      cases h3 : l.subscribes with
      | cons id _ => exact ⟨.subAck ⟨id, .empty, []⟩, by simp [IsAnswer, h3]⟩
      | nil =>
        cases h4 : l.unsubscribes with
        | cons id _ => exact ⟨.unsubAck ⟨id, .empty, []⟩, by simp [IsAnswer, h4]⟩
        | nil => exact absurd ⟨h1, h2, h3, h4⟩ h

end Mqrstt
