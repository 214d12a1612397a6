import Verif.Proof.SessionStep
/-!
# Connecting, and the invariant along every history
-/

namespace Mqrstt
open Spec

variable {n r : UInt16} {clean : Bool} {s : Sys} {l : Ledger} {lost : List UInt16}

/-- what is sent again for an unacknowledged publish -/
def again (p : Publish) : Packet := .publish { p with dup := true }

theorem State.republish_eq (st : State) : ∀ (ps : List Publish),
    (∀ p ∈ ps, ∃ id, p.pkid = some id ∧ st.stored id = some p) →
    st.republish (ps.filterMap (·.pkid)) = some (ps.map again)
  | [], _ => rfl
  | p :: ps, h => by
    obtain ⟨id, h1, h2⟩ := h p (by simp)
    rw [List.filterMap_cons_some h1]
    simp only [State.republish, h2, State.republish_eq st ps (fun x hx => h x (List.mem_cons_of_mem _ hx))]
    rfl

/-- what handling a CONNACK does -/
structure Connacked (n r : UInt16) (clean : Bool) (s : Sys) (l : Ledger) (lost : List UInt16) (c : ConnAck)
    (out : Handler × Except HFail (Option (List Packet))) : Prop where
  ok : ∀ ps, out.2 = .ok (some ps) → c.reason = .success ∧
    Inv n r clean { s with handler := out.1 } (l.onConnected clean c) (lost ++ l.leak clean (.connected c ps)) ∧
    (Ledger.resumed clean c = true →
      ps = l.unacked.map again ++ s.handler.state.rel.map fun id => .pubRel (State.successAck id)) ∧
    (Ledger.resumed clean c = false → ps = [])
  none : out.2 = .ok none → c.reason ≠ .success ∧ out.1 = s.handler
  err : ∀ e, out.2 = .error (.err e) → c.reason = .success ∧ s.pool.closed = true ∧
    Inv n r clean { s with handler := out.1 } (l.onConnected clean c) (lost ++ l.leak clean (.connectError c e))
  panic : out.2 ≠ .error .panic

theorem stored_replicate (st : State) (k : Nat) (h : st.slots = List.replicate k none) (id : UInt16) :
    st.stored id = none := by
  cases e : st.stored id with
  | none => rfl
  | some p =>
    obtain ⟨i, _, hs⟩ := State.stored_some e
    rw [h, List.getElem?_replicate] at hs
    split at hs <;> simp at hs

theorem Inv.connAck (h : Inv n r clean s l lost) (ha : s.alive = true) (c : ConnAck) :
    Connacked n r clean s l lost c (s.handler.connAck c) := by
  have hl := h.live ha
  have hclean := h.clean
  unfold Handler.connAck
  rcases Decidable.em (c.reason = .success) with hsucc | hsucc
  case inr =>
    rw [if_neg hsucc]
    exact ⟨by intro ps hh; simp at hh, fun _ => ⟨hsucc, rfl⟩, by intro e hh; simp at hh, by simp⟩
  rw [if_pos hsucc, hclean]
  have hlen := h.length
  have hlsub : s.handler.state.sub.length = l.subscribes.length :=
    (List.perm_iff_count.mpr hl.sub).length_eq
  have hlunsub : s.handler.state.unsub.length = l.unsubscribes.length :=
    (List.perm_iff_count.mpr hl.unsub).length_eq
  have hlids : l.ids.length = l.calling.length + l.queued.length + l.publishIds.length + l.accepted.length
      + l.subscribes.length + l.unsubscribes.length := by
    simp only [Ledger.ids, List.length_append]
  cases hres : (c.sessionPresent && !clean) with
  | true =>
    have hresumed : Ledger.resumed clean c = true := hres
    have hrep : s.handler.state.republish s.handler.state.order = some (l.unacked.map again) := by
      rw [hl.order]
      exact State.republish_eq _ _ (fun p hp => by
        obtain ⟨id, h1, _, h3⟩ := hl.stored p hp; exact ⟨id, h1, h3⟩)
    simp only [State.reset, if_true, hrep]
    cases hc : s.pool.closed with
    | false =>
      rw [Handler.freeAll_open (s.handler.state.sub ++ s.handler.state.unsub)
        { s.handler.state with sub := [], unsub := [], incoming := [] } hc (by
        show s.pool.queue.length + _ ≤ s.pool.cap
        rw [h.cap, List.length_append]; omega)]
      refine ⟨?_, by simp, by intro e hh; simp at hh, by simp⟩
      intro ps hps
      simp only [Except.ok.injEq, Option.some.injEq] at hps
      refine ⟨hsucc, ?_, fun _ => hps.symm, by simp [hresumed]⟩
      refine ⟨h.cap, ?_, ?_, h.pok, rfl, fun _ => ?_⟩
      · intro a
        have h1 := h.cnt a
        have h2 := hl.sub a
        have h3 := hl.unsub a
        show (s.pool.queue ++ (s.handler.state.sub ++ s.handler.state.unsub)).count a + _ + _ = _
        rw [count_ids] at h1 ⊢
        simp only [Ledger.leak, hresumed, if_true, List.append_nil, Ledger.onConnected, List.count_append,
          List.count_nil, Ledger.publishIds] at h1 ⊢
        omega
      · simp only [Ledger.onConnected, hresumed, if_true]; exact h.calling
      · simp only [Ledger.onConnected, hresumed, if_true]
        exact ⟨hl.queued, hl.qok, hl.order, hl.stored, hl.only, hl.rel, fun a => rfl, fun a => rfl, hl.slots, List.Pairwise.nil⟩
    | true =>
      have hfc := Handler.freeAll_closed (s.handler.state.sub ++ s.handler.state.unsub)
        { s.handler.state with sub := [], unsub := [], incoming := [] } hc
      rw [hfc]
      have hInv : ∀ lost', (∀ a, lost'.count a = lost.count a + l.subscribes.count a + l.unsubscribes.count a) →
          Inv n r clean { s with handler := { s.handler with state := { s.handler.state with sub := [], unsub := [], incoming := [] }, cleanStart := clean } }
            (l.onConnected clean c) lost' := by
        intro lost' hlost
        refine ⟨h.cap, ?_, ?_, h.pok, rfl, fun _ => ?_⟩
        · intro a
          have h1 := h.cnt a
          have h2 := hlost a
          show s.pool.queue.count a + _ + _ = _
          rw [count_ids] at h1 ⊢
          simp only [hresumed, if_true, Ledger.onConnected,
            List.count_nil, Ledger.publishIds] at h1 ⊢
          omega
        · simp only [Ledger.onConnected, hresumed, if_true]; exact h.calling
        · simp only [Ledger.onConnected, hresumed, if_true]
          exact ⟨hl.queued, hl.qok, hl.order, hl.stored, hl.only, hl.rel, fun a => rfl, fun a => rfl, hl.slots, List.Pairwise.nil⟩
      cases hlist : s.handler.state.sub ++ s.handler.state.unsub with
      | nil =>
        simp only
        rw [List.append_eq_nil_iff] at hlist
        refine ⟨?_, by simp, by intro e hh; simp at hh, by simp⟩
        intro ps hps
        simp only [Except.ok.injEq, Option.some.injEq] at hps
        refine ⟨hsucc, ?_, fun _ => hps.symm, by simp [hresumed]⟩
        apply hInv
        intro a
        have h2 := hl.sub a
        have h3 := hl.unsub a
        rw [hlist.1] at h2
        rw [hlist.2] at h3
        simp only [Ledger.leak, hresumed, if_true, List.append_nil]
        simp only [List.count_nil] at h2 h3
        omega
      | cons id ids =>
        simp only
        refine ⟨by intro ps hh; simp at hh, by simp, ?_, by simp⟩
        intro e he
        refine ⟨hsucc, hc, ?_⟩
        apply hInv
        intro a
        simp only [Ledger.leak, hresumed, if_true, List.append_nil, List.count_append]
        omega
  | false =>
    have hresumed : Ledger.resumed clean c = false := hres
    simp only [State.reset, Bool.false_eq_true, if_false]
    have hst : ∀ (st : State) id, st.slots = List.replicate s.handler.state.slots.length none → st.stored id = none :=
      fun st id hh => stored_replicate st _ hh id
    cases hc : s.pool.closed with
    | false =>
      rw [Handler.freeAll_open (s.handler.state.sub ++ s.handler.state.unsub ++ s.handler.state.order)
        { s.handler.state with sub := [], unsub := [], incoming := [], slots := List.replicate s.handler.state.slots.length none, order := [], rel := [] } hc (by
        show s.pool.queue.length + _ ≤ s.pool.cap
        rw [h.cap, List.length_append, List.length_append, hl.order]; omega)]
      refine ⟨?_, by simp, by intro e hh; simp at hh, by simp⟩
      intro ps hps
      simp only [Except.ok.injEq, Option.some.injEq] at hps
      refine ⟨hsucc, ?_, by simp [hresumed], fun _ => hps.symm⟩
      refine ⟨h.cap, ?_, ?_, h.pok, rfl, fun _ => ?_⟩
      · intro a
        have h1 := h.cnt a
        have h2 := hl.sub a
        have h3 := hl.unsub a
        have h4 : s.handler.state.order.count a = l.publishIds.count a := by rw [hl.order]
        show (s.pool.queue ++ (s.handler.state.sub ++ s.handler.state.unsub ++ s.handler.state.order)).count a + _ + _ = _
        rw [count_ids] at h1 ⊢
        simp only [Ledger.leak, hresumed, Bool.false_eq_true, if_false, Ledger.onConnected, List.count_append,
          List.count_nil, Ledger.publishIds, List.filterMap_nil] at h1 h4 ⊢
        omega
      · simp only [Ledger.onConnected, hresumed, Bool.false_eq_true, if_false]; exact h.calling
      · simp only [Ledger.onConnected, hresumed, Bool.false_eq_true, if_false]
        refine ⟨hl.queued, hl.qok, rfl, by intro p hp; simp at hp, ?_, fun a => rfl, fun a => rfl, fun a => rfl, ?_, List.Pairwise.nil⟩
        · intro id p hh
          exact absurd ((hst _ id rfl).symm.trans hh) (by simp)
        · show (List.replicate _ _).length = _
          rw [List.length_replicate]; exact hl.slots
    | true =>
      have hfc := Handler.freeAll_closed (s.handler.state.sub ++ s.handler.state.unsub ++ s.handler.state.order)
        { s.handler.state with sub := [], unsub := [], incoming := [], slots := List.replicate s.handler.state.slots.length none, order := [], rel := [] } hc
      rw [hfc]
      have hInv : ∀ lost', (∀ a, lost'.count a = lost.count a + l.subscribes.count a + l.unsubscribes.count a + l.publishIds.count a + l.accepted.count a) →
          Inv n r clean { s with handler := { s.handler with state := { s.handler.state with sub := [], unsub := [], incoming := [], slots := List.replicate s.handler.state.slots.length none, order := [], rel := [] }, cleanStart := clean } }
            (l.onConnected clean c) lost' := by
        intro lost' hlost
        refine ⟨h.cap, ?_, ?_, h.pok, rfl, fun _ => ?_⟩
        · intro a
          have h1 := h.cnt a
          have h2 := hlost a
          show s.pool.queue.count a + _ + _ = _
          rw [count_ids] at h1 ⊢
          simp only [hresumed, Bool.false_eq_true, if_false, Ledger.onConnected,
            List.count_nil, Ledger.publishIds, List.filterMap_nil] at h1 h2 ⊢
          omega
        · simp only [Ledger.onConnected, hresumed, Bool.false_eq_true, if_false]; exact h.calling
        · simp only [Ledger.onConnected, hresumed, Bool.false_eq_true, if_false]
          refine ⟨hl.queued, hl.qok, rfl, by intro p hp; simp at hp, ?_, fun a => rfl, fun a => rfl, fun a => rfl, ?_, List.Pairwise.nil⟩
          · intro id p hh
            exact absurd ((hst _ id rfl).symm.trans hh) (by simp)
          · show (List.replicate _ _).length = _
            rw [List.length_replicate]; exact hl.slots
      cases hlist : s.handler.state.sub ++ s.handler.state.unsub ++ s.handler.state.order with
      | nil =>
        simp only
        rw [List.append_eq_nil_iff, List.append_eq_nil_iff] at hlist
        refine ⟨?_, by simp, by intro e hh; simp at hh, by simp⟩
        intro ps hps
        simp only [Except.ok.injEq, Option.some.injEq] at hps
        refine ⟨hsucc, ?_, by simp [hresumed], fun _ => hps.symm⟩
        apply hInv
        intro a
        have h2 := hl.sub a
        have h3 := hl.unsub a
        have h4 : s.handler.state.order.count a = l.publishIds.count a := by rw [hl.order]
        rw [hlist.1.1] at h2
        rw [hlist.1.2] at h3
        rw [hlist.2] at h4
        simp only [Ledger.leak, hresumed, Bool.false_eq_true, if_false, List.count_append]
        simp only [List.count_nil] at h2 h3 h4
        omega
      | cons id ids =>
        simp only
        refine ⟨by intro ps hh; simp at hh, by simp, ?_, by simp⟩
        intro e he
        refine ⟨hsucc, hc, ?_⟩
        apply hInv
        intro a
        simp only [Ledger.leak, hresumed, Bool.false_eq_true, if_false, List.count_append]
        omega

/-! ## all steps -/

theorem Inv.step (h : Inv n r clean s l lost) {op : Op} {s' : Sys} {e : Event}
    (hs : s.step op = some (s', e)) :
    Inv n r clean s' (l.step clean e) (lost ++ l.leak clean e) := by
  cases op with
  | call q => exact h.call hs
  | submit k =>
    simp only [Sys.step] at hs
    cases hp : s.pending[k]? with
    | none => rw [hp] at hs; simp at hs
    | some p =>
      rw [hp] at hs
      simp only at hs
      split at hs
      · split at hs
        · simp only [Option.some.injEq, Prod.mk.injEq] at hs
          obtain ⟨rfl, rfl⟩ := hs
          simp only [Ledger.leak, List.append_nil]
          exact h.submit hp
        · simp at hs
      · simp only [Option.some.injEq, Prod.mk.injEq] at hs
        obtain ⟨rfl, rfl⟩ := hs
        exact h.gone hp
  | abandon k =>
    simp only [Sys.step] at hs
    cases hp : s.pending[k]? with
    | none => rw [hp] at hs; simp at hs
    | some p =>
      rw [hp] at hs
      simp only [Option.some.injEq, Prod.mk.injEq] at hs
      obtain ⟨rfl, rfl⟩ := hs
      exact h.gone hp
  | dropClients =>
    simp only [Sys.step, Option.some.injEq, Prod.mk.injEq] at hs
    obtain ⟨rfl, rfl⟩ := hs
    exact h.dropClients
  | dropNetwork =>
    simp only [Sys.step] at hs
    split at hs
    · simp only [Option.some.injEq, Prod.mk.injEq] at hs
      obtain ⟨rfl, rfl⟩ := hs
      simp only [Ledger.leak, List.append_nil, Ledger.step]
      exact h.dead rfl rfl rfl rfl
    · simp at hs
  | write ok =>
    simp only [Sys.step] at hs
    split at hs
    · rename_i ha
      cases hq : s.queue with
      | nil => rw [hq] at hs; simp at hs
      | cons p rest =>
        rw [hq] at hs
        simp only at hs
        split at hs
        · have hw := h.write_ok ha hq
          simp only [Handler.outgoing] at hs
          rcases hw with ⟨st, hst, _, hinv⟩ | ⟨hpanic, _⟩
          · rw [hst] at hs
            simp only [Option.some.injEq, Prod.mk.injEq] at hs
            obtain ⟨rfl, rfl⟩ := hs
            simp only [Ledger.leak, List.append_nil, Ledger.step]
            exact hinv
          · rw [hpanic] at hs
            simp only [Option.some.injEq, Prod.mk.injEq] at hs
            obtain ⟨rfl, rfl⟩ := hs
            simp only [Ledger.leak, List.append_nil, Ledger.step]
            exact h.dead rfl rfl rfl rfl
        · simp only [Option.some.injEq, Prod.mk.injEq] at hs
          obtain ⟨rfl, rfl⟩ := hs
          simp only [Ledger.leak, List.append_nil, Ledger.step]
          exact h.writeFailed hq
    · simp at hs
  | receive p =>
    simp only [Sys.step] at hs
    split at hs
    · rename_i ha
      have hr := h.receive ha p
      simp only [Handler.incoming] at hs
      generalize Handler.incomingState s.handler.state p = out at hs hr
      obtain ⟨st, res⟩ := out
      obtain ⟨h1, h2, h3⟩ := hr
      simp only at hs h1 h2 h3
      cases res with
      | ok v =>
        obtain ⟨reply, shown⟩ := v
        simp only [Option.some.injEq, Prod.mk.injEq] at hs
        obtain ⟨rfl, rfl⟩ := hs
        exact h1 reply shown rfl
      | error f =>
        cases f with
        | err e =>
          simp only [Option.some.injEq, Prod.mk.injEq] at hs
          obtain ⟨rfl, rfl⟩ := hs
          exact h2 e rfl
        | panic =>
          simp only [Option.some.injEq, Prod.mk.injEq] at hs
          obtain ⟨rfl, rfl⟩ := hs
          simp only [Ledger.leak, List.append_nil, Ledger.step]
          exact h.dead (h3 rfl) rfl rfl rfl
    · simp at hs
  | connAck c =>
    simp only [Sys.step] at hs
    split at hs
    · rename_i ha
      have hr := h.connAck ha c
      generalize s.handler.connAck c = out at hs hr
      obtain ⟨hd, res⟩ := out
      obtain ⟨h1, h2, h3, h4⟩ := hr
      simp only at hs h1 h2 h3 h4
      cases res with
      | ok v =>
        cases v with
        | none =>
          simp only [Option.some.injEq, Prod.mk.injEq] at hs
          obtain ⟨rfl, rfl⟩ := hs
          simp only [Ledger.leak, List.append_nil, Ledger.step]
          rw [(h2 rfl).2]
          exact h
        | some ps =>
          simp only [Option.some.injEq, Prod.mk.injEq] at hs
          obtain ⟨rfl, rfl⟩ := hs
          exact (h1 ps rfl).2.1
      | error f =>
        cases f with
        | err e =>
          simp only [Option.some.injEq, Prod.mk.injEq] at hs
          obtain ⟨rfl, rfl⟩ := hs
          exact (h3 e rfl).2.2
        | panic => exact absurd rfl h4
    · simp at hs

theorem Inv.run : ∀ (ops : List Op) {s : Sys} {l : Ledger} {lost : List UInt16}, Inv n r clean s l lost →
    Inv n r clean (s.run ops).1 ((s.run ops).2.foldl (Ledger.step clean) l)
      (lost ++ l.lost clean (s.run ops).2)
  | [], s, l, lost, h => by
    simp only [Sys.run, List.foldl_nil, Ledger.lost, List.append_nil]; exact h
  | op :: ops, s, l, lost, h => by
    unfold Sys.run
    cases hs : s.step op with
    | none => exact Inv.run ops h
    | some v =>
      obtain ⟨s', e⟩ := v
      have := Inv.run ops (h.step hs)
      simp only [List.foldl_cons, Ledger.lost]
      rw [← List.append_assoc]
      exact this

/-- the invariant holds after every history -/
theorem Inv.history (n r : UInt16) (m : Nat) (clean : Bool) (ops : List Op) :
    Inv n r clean ((Sys.init n r m clean).run ops).1
      (Ledger.after clean ((Sys.init n r m clean).run ops).2)
      (Ledger.empty.lost clean ((Sys.init n r m clean).run ops).2) := by
  have := Inv.run ops (Inv.start n r m clean)
  simpa [Ledger.after] using this

theorem Sys.run_append (s : Sys) (a b : List Op) :
    s.run (a ++ b) = (((s.run a).1.run b).1, (s.run a).2 ++ ((s.run a).1.run b).2) := by
  induction a generalizing s with
  | nil => simp [Sys.run]
  | cons op ops ih =>
    simp only [List.cons_append, Sys.run]
    cases s.step op with
    | none => simp only [ih]
    | some v => simp only [ih, List.cons_append]

end Mqrstt
