import Verif.Spec.Order
import Verif.Proof.Inbox
/-!
# The order of answers: the invariant
-/

namespace Mqrstt
open Mqrstt.Spec

/-- the answer that is still to come for the packet read last -/
def pending (s : Rcv) : List Reply := (s.mid.bind Reply.to).toList

theorem replies_fold : ∀ (o : List Obs) (s : Rcv) (r : Replies), s.Keeps o → r.running = s.running → (s.mid ≠ none → s.running = true) →
    (∃ before, r.due = before ++ pending s ∧ r.given.Sublist before) →
    ∃ before, (o.foldl Replies.next r).due = before ++ pending (o.foldl Rcv.next s) ∧ (o.foldl Replies.next r).given.Sublist before
  | [], _, _, _, _, _, h => h
  | x :: o, s, r, hk, hr, hm, ⟨before, h1, h2⟩ => by
    rw [List.foldl_cons, List.foldl_cons]
    have hall : r.given.Sublist r.due := h1 ▸ h2.trans (List.sublist_append_left _ _)
    -- nothing pending any more
    have quiet : ∀ (s' : Rcv) (r' : Replies), s'.mid = none → r'.due = r.due → r'.given = r.given →
        ∃ before, r'.due = before ++ pending s' ∧ r'.given.Sublist before := by
      intro s' r' g1 g2 g3
      exact ⟨r.due, by simp [pending, g1, g2], g3 ▸ hall⟩
    refine replies_fold o _ _ hk.2 ?_ ?_ ?_
    · -- running
      cases x with
      | read p => rw [next_read_running]; simp only [Replies.next]; split <;> exact hr
      | wrote p a b => simp only [Replies.next, Rcv.next]; split <;> exact hr
      | _ => simp [Replies.next, Rcv.next, runStep, hr]
    · -- mid
      cases x with
      | read p =>
        intro hmid
        rw [next_read_running]
        cases hs : s.running
        · exfalso; apply hmid
          simp only [Rcv.next, hs]
          cases p <;> simp
          split <;> rfl
        · rfl
      | delivered p => exact hm
      | _ => simp [Rcv.next]
    · cases x with
      | read p =>
        cases hs : s.running
        · refine quiet _ _ ?_ (by simp [Replies.next, hr, hs]) (by simp [Replies.next, hr, hs])
          simp only [Rcv.next, hs]
          cases p <;> simp
          split <;> rfl
        · refine ⟨r.due, ?_, ?_⟩
          · simp [Replies.next, Rcv.next, hr, hs, pending, onRead_mid]
          · simp only [Replies.next, hr, hs, if_true]; exact hall
      | wrote p a b =>
        cases hs : s.running
        · exact quiet _ _ rfl (by simp [Replies.next, hr, hs]) (by simp [Replies.next, hr, hs])
        · cases ho : Reply.of p with
          | none => exact quiet _ _ rfl (by simp [Replies.next, hr, hs]) (by simp [Replies.next, hr, hs, ho])
          | some q =>
            have hp : pending s = [q] := by
              have hmay : s.May p := hk.1
              cases p <;> simp [Reply.of] at ho <;> subst ho
              · obtain ⟨-, m, h1, h2, h3⟩ := hmay
                simp [pending, h1, Reply.to, h2, h3]
              · obtain ⟨-, -, m, h1, h2, h3⟩ := hmay
                simp [pending, h1, Reply.to, h2, h3]
              · obtain ⟨m, h1, h2⟩ := hmay hs
                simp [pending, h1, Reply.to, h2]
              · obtain ⟨-, m, h1, h2⟩ := hmay
                simp [pending, h1, Reply.to, h2]
            refine ⟨r.due, by simp [Replies.next, Rcv.next, hr, hs, pending], ?_⟩
            simp only [Replies.next, hr, hs, if_true, ho, Option.toList_some]
            rw [h1, hp]
            exact h2.append (List.Sublist.refl _)
      | delivered p => exact ⟨before, h1, h2⟩
      | _ => exact quiet _ _ rfl rfl rfl

end Mqrstt
