import Verif.Proof.Senders
import Verif.Spec.Reuse
/-!
# The order in which identifiers are handed out
-/

namespace Mqrstt
open Mqrstt.Spec Mqrstt.Props

namespace State

theorem makePkid_queue (s : State) (id : UInt16) : s.pool.queue <+: (s.makePkidAvailable id).1.pool.queue := by
  simp only [makePkidAvailable, Pool.markAvailable]
  repeat' split
  all_goals simp

end State

namespace Handler

theorem release_queue (s : State) (id : UInt16) : s.pool.queue <+: (release s id).1.pool.queue := by
  simp only [release]
  have := s.makePkid_queue id
  split <;> simpa using this

theorem incoming_queue (h : Handler) (p : Packet) : h.state.pool.queue <+: (h.incoming p).1.state.pool.queue := by
  obtain ⟨s, c⟩ := h
  simp only [incoming]
  have shown_fst : ∀ r : State × Except HFail (Option Packet), (shown r).1 = r.1 := by
    rintro ⟨s, _ | _⟩ <;> rfl
  cases p <;> simp only [incomingState, shown_fst] <;> try exact List.prefix_refl _
  case publish p =>
    simp only [incomingPublish, State.addIncomingPub]
    repeat' split
    all_goals exact List.prefix_refl _
  case pubAck a =>
    have := s.removePub_pool a.id
    simp only [incomingPubAck]
    split
    · rw [← this]; exact List.prefix_refl _
    · rw [← this]; exact release_queue _ _
    · rw [← this]; exact List.prefix_refl _
  case pubRec a =>
    have := s.removePub_pool a.id
    simp only [incomingPubRec]
    split
    · simp [this]
    · split <;> simp [State.addOutgoingRel, this]
    · simp [this]
  case pubComp a =>
    simp only [incomingPubComp, State.removeOutgoingRel]
    by_cases hb : (IdSet.remove a.id s.rel).2 = true <;> simp only [hb, if_true, Bool.false_eq_true, if_false]
    · exact release_queue { s with rel := (IdSet.remove a.id s.rel).1 } a.id
    · exact List.prefix_refl _
  case subAck a =>
    simp only [incomingSubAck, State.removeOutgoingSub]
    by_cases hb : (IdSet.remove a.id s.sub).2 = true <;> simp only [hb, if_true, Bool.false_eq_true, if_false]
    · exact release_queue { s with sub := (IdSet.remove a.id s.sub).1 } a.id
    · exact List.prefix_refl _
  case unsubAck a =>
    simp only [incomingUnsubAck, State.removeOutgoingUnsub]
    by_cases hb : (IdSet.remove a.id s.unsub).2 = true <;> simp only [hb, if_true, Bool.false_eq_true, if_false]
    · exact release_queue { s with unsub := (IdSet.remove a.id s.unsub).1 } a.id
    · exact List.prefix_refl _

theorem freeAll_queue : ∀ (ids : List UInt16) (s : State), s.pool.queue <+: (freeAll s ids).1.pool.queue
  | [], _ => List.prefix_refl _
  | id :: ids, s => by
    have h := s.makePkid_queue id
    unfold freeAll
    split
    · rename_i e; rw [e] at h; exact h
    · rename_i e; rw [e] at h; exact h.trans (freeAll_queue ids _)

theorem connAck_queue (h : Handler) (c : ConnAck) : h.state.pool.queue <+: (h.connAck c).1.state.pool.queue := by
  unfold connAck
  split
  · have h1 := reset_pool h.state (c.sessionPresent && !h.cleanStart)
    split
    · rename_i e; rw [e] at h1; simp only at h1 ⊢; rw [h1]; exact List.prefix_refl _
    · rename_i s fr re e
      rw [e] at h1
      simp only at h1
      have h2 := freeAll_queue fr s
      split <;> (rename_i e2; rw [e2] at h2; simpa [h1] using h2)
  · exact List.prefix_refl _

end Handler

/-- the identifier at the front goes, or others are added behind -/
def Shifts (q : List UInt16) (id : Option UInt16) (q' : List UInt16) : Prop :=
  match id with
  | some id => q = id :: q'
  | none => q <+: q'

theorem Sys.step_handed {s s' : Sys} {op : Op} {e : Event} (h : s.step op = some (s', e)) :
    Shifts s.pool.queue (handedOut e) s'.pool.queue := by
  cases op with
  | call q =>
    rcases call_cases h with ⟨t, id, ht, hw⟩ | ⟨rfl, rfl, _⟩
    · have h1 : Shifts s.pool.queue id t.pool.queue := by
        cases ht with
        | none _ ht => subst ht; exact List.prefix_refl _
        | some id pool _ hp ht =>
          subst ht
          simp only [Pool.take] at hp
          split at hp
          · simp at hp
          · rename_i hq
            simp only [Option.some.injEq, Prod.mk.injEq] at hp
            obtain ⟨rfl, rfl⟩ := hp
            exact hq
      obtain ⟨p, -, ⟨rfl, rfl, _⟩ | ⟨rfl, x, rfl, _⟩⟩ := callWith_cases hw
      · exact h1
      · exact h1
    · exact List.prefix_refl _
  | submit k =>
    simp only [Sys.step] at h
    repeat' split at h
    all_goals first | (simp at h; done) | (simp only [Option.some.injEq, Prod.mk.injEq] at h; obtain ⟨rfl, rfl⟩ := h; exact List.prefix_refl _)
  | abandon k =>
    simp only [Sys.step] at h
    repeat' split at h
    all_goals first | (simp at h; done) | (simp only [Option.some.injEq, Prod.mk.injEq] at h; obtain ⟨rfl, rfl⟩ := h; exact List.prefix_refl _)
  | dropClients =>
    simp only [Sys.step, Option.some.injEq, Prod.mk.injEq] at h
    obtain ⟨rfl, rfl⟩ := h
    exact List.prefix_refl _
  | dropNetwork =>
    simp only [Sys.step] at h
    repeat' split at h
    all_goals first | (simp at h; done) | (simp only [Option.some.injEq, Prod.mk.injEq] at h; obtain ⟨rfl, rfl⟩ := h; exact List.prefix_refl _)
  | write ok =>
    simp only [Sys.step] at h
    repeat' split at h
    all_goals first
      | (simp at h; done)
      | (rename_i he
         have hc := congrArg (fun r => r.1.state.pool) he
         simp only [Handler.outgoing_closed] at hc
         simp only [Option.some.injEq, Prod.mk.injEq] at h; obtain ⟨rfl, rfl⟩ := h; simp [Shifts, handedOut, Sys.pool, Sys.die, ← hc])
      | (simp only [Option.some.injEq, Prod.mk.injEq] at h; obtain ⟨rfl, rfl⟩ := h; exact List.prefix_refl _)
  | receive p =>
    have hc := s.handler.incoming_queue p
    simp only [Sys.step] at h
    split at h
    · split at h <;> (rename_i he; rw [he] at hc; simp only [Option.some.injEq, Prod.mk.injEq] at h; obtain ⟨rfl, rfl⟩ := h; exact hc)
    · cases h
  | connAck c =>
    have hc := s.handler.connAck_queue c
    simp only [Sys.step] at h
    split at h
    · split at h <;> (rename_i he; rw [he] at hc; simp only [Option.some.injEq, Prod.mk.injEq] at h; obtain ⟨rfl, rfl⟩ := h; exact hc)
    · cases h

/-- what has been handed out, then what is available, starts with what was available -/
theorem Sys.run_handed (s : Sys) (ops : List Op) :
    s.pool.queue <+: (s.run ops).2.filterMap handedOut ++ (s.run ops).1.pool.queue := by
  induction ops generalizing s with
  | nil => exact List.prefix_refl _
  | cons op ops ih =>
    simp only [Sys.run]
    cases e : s.step op with
    | none => exact ih s
    | some x =>
      obtain ⟨s', ev⟩ := x
      have h := Sys.step_handed e
      have h2 := ih s'
      simp only [List.filterMap_cons]
      cases hid : handedOut ev with
      | some id =>
        rw [hid] at h
        simp only [Shifts] at h
        rw [h]
        exact List.cons_prefix_cons.2 ⟨rfl, h2⟩
      | none =>
        rw [hid] at h
        exact List.IsPrefix.trans h h2

end Mqrstt
