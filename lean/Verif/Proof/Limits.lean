import Verif.Spec.Limits
import Verif.Proof.Origin
import Verif.Proof.EndToEnd
/-!
# Helper lemmas for `Verif.Props.Limits`

The quota of MQTT and the sender of C65 side by side.
-/

namespace Mqrstt
open Spec

/-- publishes taken from the quota, those still to be sent again, and those in flight -/
structure Counted (s : Sender) (used : Nat) : Prop where
  nodup : (s.unacked.filterMap (·.pkid) ++ s.accepted).Nodup
  pub : ∀ p ∈ s.unacked, p.pkid ≠ none
  count : used + s.again.length ≤ s.unacked.length + s.accepted.length
  le : s.again.length ≤ s.unacked.length
  idle : s.running = true → s.again = []

theorem pkids_length {l : List Publish} (h : ∀ p ∈ l, p.pkid ≠ none) : (l.filterMap (·.pkid)).length = l.length := by
  induction l with
  | nil => rfl
  | cons p l ih =>
    obtain ⟨i, hi⟩ := Option.ne_none_iff_exists'.mp (h p List.mem_cons_self)
    simp [List.filterMap_cons, hi, ih fun q hq => h q (List.mem_cons_of_mem _ hq)]

/-- removing an identifier removes at most one publish -/
theorem filter_isFor_length {l : List Publish} (i : UInt16) (h : (l.filterMap (·.pkid)).Nodup) :
    l.length ≤ (l.filter fun p => !Sender.isFor i p).length + 1 := by
  induction l with
  | nil => simp
  | cons p l ih =>
    cases hp : p.pkid with
    | none =>
      simp only [List.filterMap_cons, hp] at h
      have := ih h
      simp [List.filter_cons, Sender.isFor, hp] at this ⊢
      omega
    | some j =>
      simp only [List.filterMap_cons, hp, List.nodup_cons] at h
      have := ih h.2
      by_cases hj : j = i
      · subst hj
        have : (l.filter fun p => !Sender.isFor j p) = l := by
          rw [List.filter_eq_self]
          intro q hq
          simp only [Sender.isFor, Bool.not_eq_true', beq_eq_false_iff_ne]
          intro hqi
          exact h.1 (List.mem_filterMap.mpr ⟨q, hq, hqi⟩)
        simp [List.filter_cons, Sender.isFor, hp]
        have h2 := congrArg List.length this
        simp only [Sender.isFor] at h2
        omega
      · simp [List.filter_cons, Sender.isFor, hp, hj] at this ⊢
        omega

theorem dropWhile_ne_nil {α : Type} {f : α → Bool} {l : List α} {x : α} (hx : x ∈ l) (hf : f x = false) : l.dropWhile f ≠ [] := by
  induction l with
  | nil => simp at hx
  | cons y l ih =>
    rw [List.dropWhile_cons]
    split
    · rename_i hy
      rcases List.mem_cons.mp hx with rfl | hx
      · rw [hf] at hy; simp at hy
      · exact ih hx
    · simp

theorem Counted.snoc {clean : Bool} {s : Sender} {q : Quota} (h : Counted s q.used) (x : Obs)
    (hm : ∀ p a b, x = .wrote p a b → s.MaySend clean p) : Counted (s.next clean x) (q.next x).used := by
  have filt : ∀ i, ((s.unacked.filter fun p => !Sender.isFor i p).filterMap (·.pkid) ++ s.accepted).Nodup := fun i =>
    (List.Sublist.append (List.Sublist.filterMap _ List.filter_sublist) (List.Sublist.refl _)).nodup h.nodup
  have filtPub : ∀ i, ∀ p ∈ s.unacked.filter fun p => !Sender.isFor i p, p.pkid ≠ none :=
    fun i p hp => h.pub p (List.filter_sublist.mem hp)
  have less : ∀ i, s.unacked.length ≤ (s.unacked.filter fun p => !Sender.isFor i p).length + 1 :=
    fun i => filter_isFor_length i (List.nodup_append.mp h.nodup).1
  have fewer : ∀ n, n ≤ q.used → Counted s n := fun n hn => ⟨h.nodup, h.pub, by have := h.count; omega, h.le, h.idle⟩
  have stop : Counted { s with running := false } q.used := ⟨h.nodup, h.pub, h.count, h.le, by simp⟩
  cases x <;> try exact h
  case wrote p a b =>
    have hm := hm p a b rfl
    simp only [Sender.next]
    cases p <;> try exact h
    case connect => exact ⟨h.nodup, h.pub, by have := h.count; simp [Sender.onWrote, Quota.next]; omega, by simp [Sender.onWrote], by simp [Sender.onWrote]⟩
    case publish p =>
      simp only [Sender.onWrote, Quota.next]
      rcases hm with ⟨h1, -, -⟩ | ⟨h1, h2, h3, id, h4, h5, h6⟩ | ⟨h1, h2, r, h3, rfl⟩
      · simp only [h1, if_true]; exact h
      · simp only [h1, if_false, h2, Bool.false_eq_true]
        refine ⟨?_, ?_, ?_, ?_, h.idle⟩
        · simp only [List.filterMap_append, List.filterMap_cons, h4, List.filterMap_nil]
          rw [List.append_assoc, (List.perm_append_comm.append_left _).nodup_iff, ← List.append_assoc, (List.perm_append_comm (l₂ := [id])).nodup_iff]
          refine List.nodup_cons.mpr ⟨?_, h.nodup⟩
          rw [List.append_eq, List.nil_append]
          rw [List.mem_append]
          rintro (hi | hi)
          · obtain ⟨p', hp', hi⟩ := List.mem_filterMap.mp hi
            have := (List.any_eq_false.mp h5) p' hp'
            simp [Sender.isFor, hi] at this
          · exact h6 hi
        · intro p' hp'
          simp only [List.mem_append, List.mem_singleton] at hp'
          rcases hp' with hp' | rfl
          · exact h.pub p' hp'
          · rw [h4]; simp
        · have := h.count; simp only [List.length_append, List.length_singleton]; omega
        · have := h.le; simp only [List.length_append, List.length_singleton]; omega
      · simp only [h1, if_false, if_true]
        have hlen : (s.again.dropWhile fun q => q.pkid != r.pkid).tail.length + 1 ≤ s.again.length := by
          have h1 : (s.again.dropWhile fun q => q.pkid != r.pkid) ≠ [] := by
            intro hn
            exact dropWhile_ne_nil h3 (by simp) hn
          have h2 := (List.dropWhile_suffix (l := s.again) fun q => q.pkid != r.pkid).length_le
          have h3 := List.length_pos_iff.mpr h1
          rw [List.length_tail]
          omega
        refine ⟨h.nodup, h.pub, ?_, ?_, ?_⟩
        · have := h.count; simp only; omega
        · have := h.le; simp only; omega
        · intro hr; rw [h2] at hr; simp at hr
    case pubRel a => exact ⟨h.nodup, h.pub, h.count, h.le, h.idle⟩
  case read p =>
    simp only [Sender.next]
    split
    · rename_i hrun
      have hag := h.idle hrun
      have hc := h.count
      cases p <;> try exact h
      case connAck c => exact ⟨h.nodup, h.pub, by simp [Quota.next, Sender.onAck, hag], h.le, h.idle⟩
      case pubAck a =>
        have := less a.id
        simp only [Sender.onAck, Quota.next]
        split <;> exact ⟨filt a.id, filtPub a.id, by simp only [hag, List.length_nil] at hc ⊢; omega, by simp [hag], fun _ => hag⟩
      case pubRec a =>
        have := less a.id
        simp only [Sender.onAck, Quota.next]
        split
        · rename_i hany
          split
          · refine ⟨?_, filtPub a.id, by simp only [hag, List.length_nil, List.length_append] at hc ⊢; simp only [List.length_singleton]; omega, by simp [hag], fun _ => hag⟩
            have hn := filt a.id
            rw [← List.append_assoc]
            rw [(List.perm_append_comm (l₂ := [a.id])).nodup_iff]
            refine List.nodup_cons.mpr ⟨?_, hn⟩
            rw [List.append_eq, List.nil_append]
            rw [List.mem_append]
            rintro (hi | hi)
            · obtain ⟨p', hp', hi⟩ := List.mem_filterMap.mp hi
              have := (List.mem_filter.mp hp').2
              simp [Sender.isFor, hi] at this
            · obtain ⟨p', hp', hi'⟩ := List.any_eq_true.mp hany
              have h1 : a.id ∈ s.unacked.filterMap (·.pkid) := List.mem_filterMap.mpr ⟨p', hp', by simpa [Sender.isFor] using hi'⟩
              exact (List.nodup_append.mp h.nodup).2.2 _ h1 _ hi rfl
          · exact ⟨filt a.id, filtPub a.id, by simp only [hag, List.length_nil] at hc ⊢; omega, by simp [hag], fun _ => hag⟩
        · split
          · exact h
          · exact fewer _ (Nat.sub_le _ _)
      case pubComp a =>
        simp only [Sender.onAck, Quota.next]
        refine ⟨(List.Sublist.append (List.Sublist.refl _) List.erase_sublist).nodup h.nodup, h.pub, ?_, h.le, h.idle⟩
        simp only [List.length_erase]
        split
        · rename_i hmem
          have := List.length_pos_of_mem hmem
          simp only [hag, List.length_nil] at hc ⊢
          omega
        · omega
    · rename_i hrun
      have hc := h.count
      have hl := h.le
      cases p <;> try exact h
      case connAck c =>
        simp only [Quota.next]
        split
        · simp only [Sender.onAccepted]
          split
          · exact ⟨h.nodup, h.pub, by simp only; omega, Nat.le_refl _, fun hr => absurd hr hrun⟩
          · exact ⟨by simp, by simp, by simp, by simp, by simp⟩
        · exact ⟨h.nodup, h.pub, by omega, hl, h.idle⟩
      case pubAck a => exact fewer _ (Nat.sub_le _ _)
      case pubComp a => exact fewer _ (Nat.sub_le _ _)
      case pubRec a =>
        simp only [Quota.next]
        split
        · exact h
        · exact fewer _ (Nat.sub_le _ _)
  case started => exact ⟨h.nodup, h.pub, by have := h.count; simp [Sender.next, Quota.next]; omega, by simp [Sender.next], by simp [Sender.next]⟩
  case ended => exact stop
  case cancelled => exact stop

/-- the same after everything observed -/
theorem counted {clean : Bool} {tr : List Obs} (hm : Obeys clean tr) : Counted (sender clean tr) (quota tr).used := by
  have h0 : ∀ n (tr : List Obs), tr.length = n → Obeys clean tr → Counted (sender clean tr) (quota tr).used := by
    intro n
    induction n with
    | zero =>
      intro tr h _
      rw [List.length_eq_zero_iff.mp h]
      exact ⟨by simp [sender, Sender.start], by simp [sender, Sender.start], by simp [sender, quota, Sender.start, Quota.start],
        by simp [sender, Sender.start], by simp [sender, Sender.start]⟩
    | succ n ih =>
      intro tr h hm
      obtain ⟨pre, x, rfl⟩ : ∃ pre x, tr = pre ++ [x] := by
        have hne : tr ≠ [] := by rintro rfl; simp at h
        exact ⟨_, _, (List.dropLast_concat_getLast hne).symm⟩
      have h1 := ih pre (by simpa using h) hm.left
      have h2 := h1.snoc (clean := clean) x (fun p a b e => hm pre p a b [] (by rw [e]))
      simpa [sender, quota, List.foldl_append] using h2
  exact h0 _ tr rfl hm

end Mqrstt
