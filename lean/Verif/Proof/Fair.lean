import Verif.Proof.Progress
import Verif.Proof.Senders
/-! # Schedules that do not neglect the queue (C57) -/

namespace Mqrstt
open Mqrstt.Spec _root_.Spec Mqrstt.Props

theorem upTo_succ {O : Type} (sched : Nat → O) (n : Nat) : upTo sched (n + 1) = upTo sched n ++ [sched n] := by
  simp [upTo, List.range_succ]

/-- the head of the queue is taken and written -/
def Takes (q : List Packet) (obs : List Obs) (q' : List Packet) : Prop :=
  ∃ p, q = p :: q' ∧ writtenIn obs = [p]

/-- one step of a network that goes on running -/
theorem VStep.queue {fl v ob w} (h : VStep fl v ob w) (hr : v.running = true) (hr' : w.running = true) :
    (∃ more, w.sys.queue = v.sys.queue ++ more) ∨ Takes v.sys.queue ob w.sys.queue := by
  cases h
  case client op sys e hc hs =>
    exact .inl ⟨_, Sys.step_queue hs (by rintro ok rfl; simp [Op.ofClient] at hc)⟩
  case accepted hR hp hs => exact .inl ⟨_, Sys.step_queue hs (by simp)⟩
  case outOk T p sys hR hs hd =>
    refine .inr ⟨p, ?_, rfl⟩
    obtain ⟨q, rest, hq, h1⟩ := Sys.step_write_event hs
    simp at h1
    subst h1
    simp only [Sys.step, hR.alive, if_true, hq] at hs
    split at hs <;> simp only [Option.some.injEq, Prod.mk.injEq, reduceCtorEq, and_false] at hs
    obtain ⟨rfl, -⟩ := hs
    exact hq
  all_goals first
    | exact absurd (hr.symm.trans ‹v.running = false›) Bool.noConfusion
    | exact absurd hr' Bool.noConfusion
    | exact .inl ⟨[], (List.append_nil _).symm⟩

theorem drains {Q : Nat → List Packet} {O : Nat → List Obs} {start : Nat}
    (hstep : ∀ n, start ≤ n → (∃ more, Q (n + 1) = Q n ++ more) ∨ Takes (Q n) (O n) (Q (n + 1)))
    (hfair : ∀ n, start ≤ n → Q n ≠ [] → ∃ m, n ≤ m ∧ Takes (Q m) (O m) (Q (m + 1))) :
    ∀ (q : List Packet) (n : Nat), start ≤ n → q <+: Q n →
      ∃ k, q.Sublist (writtenIn ((List.range k).flatMap fun i => O (n + i))) := by
  have next : ∀ (p : Packet) (q : List Packet) (n d : Nat), start ≤ n → (p :: q) <+: Q n →
      (p :: q) <+: Q (n + d) ∨ ∃ j, j < d ∧ writtenIn (O (n + j)) = [p] ∧ q <+: Q (n + j + 1) := by
    intro p q n d hn hq
    induction d with
    | zero => exact .inl hq
    | succ d ih =>
      rcases ih with h | ⟨j, hj, h⟩
      · obtain ⟨r, hr⟩ := h
        rcases hstep (n + d) (by omega) with ⟨more, hm⟩ | ⟨p', h1, h2⟩
        · refine .inl ⟨r ++ more, ?_⟩
          rw [← Nat.add_assoc, hm, ← hr]
          simp
        · rw [← hr] at h1
          simp only [List.cons_append, List.cons.injEq] at h1
          obtain ⟨rfl, h1⟩ := h1
          exact .inr ⟨d, by omega, h2, ⟨r, h1⟩⟩
      · exact .inr ⟨j, by omega, h⟩
  intro q
  induction q with
  | nil => exact fun n _ _ => ⟨0, List.nil_sublist _⟩
  | cons p q ih =>
    intro n hn hq
    obtain ⟨j, hj, hq'⟩ : ∃ j, writtenIn (O (n + j)) = [p] ∧ q <+: Q (n + j + 1) := by
      obtain ⟨r, hr⟩ := hq
      obtain ⟨m, hm, p', h1, h2⟩ := hfair n hn (by rw [← hr]; simp)
      obtain ⟨d, rfl⟩ := Nat.le.dest hm
      rcases next p q n d hn ⟨r, hr⟩ with ⟨r', h⟩ | ⟨j, -, h⟩
      · rw [← h] at h1
        simp only [List.cons_append, List.cons.injEq] at h1
        obtain ⟨rfl, h1⟩ := h1
        exact ⟨d, h2, ⟨r', h1⟩⟩
      · exact ⟨j, h⟩
    obtain ⟨k, hk⟩ := ih (n + j + 1) (by omega) hq'
    refine ⟨j + 1 + k, ?_⟩
    rw [List.range_add, List.flatMap_append, List.range_succ, List.flatMap_append]
    simp only [List.flatMap_map, List.flatMap_cons, List.flatMap_nil, List.append_nil, writtenIn, List.filterMap_append]
    simp only [writtenIn] at hj hk
    rw [hj, List.append_assoc]
    refine List.Sublist.trans ?_ (List.sublist_append_right _ _)
    refine List.Sublist.cons_cons p ?_
    have : (fun i => O (n + (j + 1 + i))) = fun i => O (n + j + 1 + i) := by
      funext i; congr 1; omega
    rw [this]
    exact hk

/-- what is observed in the `n`-th step -/
def tokioObs (o : Options) (t : Nat) (sched : Nat → TokioOp) (n : Nat) : List Obs :=
  (((tokio o t (upTo sched n)).step (sched n)).map (·.2)).getD []

def smolObs (k : Bool) (o : Options) (t : Nat) (sched : Nat → SmolOp) (n : Nat) : List Obs :=
  (((smol k o t (upTo sched n)).step (sched n)).map (·.2)).getD []

theorem tokio_succ (o : Options) (t : Nat) (sched : Nat → TokioOp) (n : Nat) :
    VStep .tokio (tokio o t (upTo sched n)).view (tokioObs o t sched n) (tokio o t (upTo sched (n + 1))).view ∧
      tokioTrace o t (upTo sched (n + 1)) = tokioTrace o t (upTo sched n) ++ tokioObs o t sched n := by
  rw [upTo_succ]
  simp only [tokioObs]
  cases e : (tokio o t (upTo sched n)).step (sched n) with
  | none =>
    have e' : Tokio.step (history Tokio.step (Tokio.new o t) (upTo sched n)).1 (sched n) = none := e
    have h1 : tokio o t (upTo sched n ++ [sched n]) = tokio o t (upTo sched n) := by
      simp only [tokio, Tokio.runOps, history_append, history_one, e']
    have h2 : tokioTrace o t (upTo sched n ++ [sched n]) = tokioTrace o t (upTo sched n) := by
      simp only [tokioTrace, Tokio.runOps, history_append, history_one, e', List.append_nil]
    rw [h1, h2]
    exact ⟨.quiet, by simp⟩
  | some x =>
    obtain ⟨s', ob⟩ := x
    obtain ⟨h1, h2⟩ := tokio_snoc e
    rw [h1, h2]
    exact ⟨Tokio.step_vstep e, rfl⟩

theorem smol_succ (k : Bool) (o : Options) (t : Nat) (sched : Nat → SmolOp) (n : Nat) :
    VStep .smol (smol k o t (upTo sched n)).view (smolObs k o t sched n) (smol k o t (upTo sched (n + 1))).view ∧
      smolTrace k o t (upTo sched (n + 1)) = smolTrace k o t (upTo sched n) ++ smolObs k o t sched n := by
  rw [upTo_succ]
  simp only [smolObs]
  cases e : (smol k o t (upTo sched n)).step (sched n) with
  | none =>
    have e' : Smol.step (history Smol.step (Smol.new k o t) (upTo sched n)).1 (sched n) = none := e
    have h1 : smol k o t (upTo sched n ++ [sched n]) = smol k o t (upTo sched n) := by
      simp only [smol, Smol.runOps, history_append, history_one, e']
    have h2 : smolTrace k o t (upTo sched n ++ [sched n]) = smolTrace k o t (upTo sched n) := by
      simp only [smolTrace, Smol.runOps, history_append, history_one, e', List.append_nil]
    rw [h1, h2]
    exact ⟨.quiet, by simp⟩
  | some x =>
    obtain ⟨s', ob⟩ := x
    obtain ⟨h1, h2⟩ := smol_snoc e
    rw [h1, h2]
    exact ⟨(Smol.step_vstep (Smol.vrun_good k o t (upTo sched n)).2 e).1, rfl⟩

theorem Tokio.looks_takes {s s' : Tokio} {op : TokioOp} {ob : List Obs} (hop : looksAtQueue op)
    (h : s.step op = some (s', ob)) (hr : s'.run.isSome = true) : Takes s.sys.queue ob s'.sys.queue := by
  cases op <;> simp only [looksAtQueue] at hop
  rename_i b lost io T
  cases b <;> simp only at hop
  simp only [Tokio.step, Tokio.turn] at h
  split at h
  · rename_i await c _ _
    split at h
    · split at h
      · simp only [Tokio.onOutgoing] at h
        split at h
        · split at h
          · simp only [Tokio.finish, Option.some.injEq, Prod.mk.injEq] at h
            obtain ⟨rfl, -⟩ := h
            simp at hr
          · simp at h
        · rename_i p rest hq
          split at h
          · split at h
            · simp only [Tokio.finish, Option.some.injEq, Prod.mk.injEq] at h
              obtain ⟨rfl, -⟩ := h
              simp at hr
            · simp at h
          · split at h
            · rename_i sys p' hs
              split at h
              · simp only [Tokio.finish, Option.some.injEq, Prod.mk.injEq] at h
                obtain ⟨rfl, -⟩ := h
                simp at hr
              · simp only [Option.some.injEq, Prod.mk.injEq] at h
                obtain ⟨rfl, rfl⟩ := h
                refine ⟨p, ?_, rfl⟩
                simp only [Sys.step] at hs
                split at hs
                · rw [hq] at hs
                  simp only at hs
                  split at hs <;> simp only [Option.some.injEq, Prod.mk.injEq, reduceCtorEq, and_false] at hs
                  obtain ⟨rfl, -⟩ := hs
                  exact hq
                · simp at hs
            · simp only [Tokio.finish, Option.some.injEq, Prod.mk.injEq] at h
              obtain ⟨rfl, -⟩ := h
              simp at hr
            · simp only [Tokio.finish, Option.some.injEq, Prod.mk.injEq] at h
              obtain ⟨rfl, -⟩ := h
              simp at hr
            · simp at h
      · simp at h
    · simp at h
  · simp at h

theorem Smol.looks_takes {s s' : Smol} {op : SmolOp} {ob : List Obs} (hop : looksAtQueueSmol op)
    (h : s.step op = some (s', ob)) (hr : s'.running = true) : Takes s.sys.queue ob s'.sys.queue := by
  cases op <;> simp only [looksAtQueueSmol] at hop
  rename_i b io T
  cases b <;> simp only at hop
  simp only [Smol.step, Smol.turn] at h
  split at h
  · split at h
    · simp only [Smol.onOutgoing] at h
      split at h
      · split at h
        · simp only [Smol.finish, Option.some.injEq, Prod.mk.injEq] at h
          obtain ⟨rfl, -⟩ := h
          simp at hr
        · simp at h
      · rename_i p rest hq
        split at h
        · split at h
          · simp only [Smol.finish, Option.some.injEq, Prod.mk.injEq] at h
            obtain ⟨rfl, -⟩ := h
            simp at hr
          · simp at h
        · split at h
          · rename_i sys p' hs
            split at h
            · simp only [Smol.finish, Option.some.injEq, Prod.mk.injEq] at h
              obtain ⟨rfl, -⟩ := h
              simp at hr
            · simp only [Option.some.injEq, Prod.mk.injEq] at h
              obtain ⟨rfl, rfl⟩ := h
              refine ⟨p, ?_, rfl⟩
              simp only [Sys.step] at hs
              split at hs
              · rw [hq] at hs
                simp only at hs
                split at hs <;> simp only [Option.some.injEq, Prod.mk.injEq, reduceCtorEq, and_false] at hs
                obtain ⟨rfl, -⟩ := hs
                exact hq
              · simp at hs
          · simp only [Smol.finish, Option.some.injEq, Prod.mk.injEq] at h
            obtain ⟨rfl, -⟩ := h
            simp at hr
          · simp only [Smol.finish, Option.some.injEq, Prod.mk.injEq] at h
            obtain ⟨rfl, -⟩ := h
            simp at hr
          · simp at h
    · simp at h
  · simp at h

theorem tokio_between (o : Options) (t : Nat) (sched : Nat → TokioOp) (n k : Nat) :
    tokioTrace o t (upTo sched (n + k)) =
      tokioTrace o t (upTo sched n) ++ (List.range k).flatMap fun i => tokioObs o t sched (n + i) := by
  induction k with
  | zero => simp
  | succ k ih => rw [← Nat.add_assoc, (tokio_succ o t sched (n + k)).2, ih, List.range_succ]; simp

theorem smol_between (c : Bool) (o : Options) (t : Nat) (sched : Nat → SmolOp) (n k : Nat) :
    smolTrace c o t (upTo sched (n + k)) =
      smolTrace c o t (upTo sched n) ++ (List.range k).flatMap fun i => smolObs c o t sched (n + i) := by
  induction k with
  | zero => simp
  | succ k ih => rw [← Nat.add_assoc, (smol_succ c o t sched (n + k)).2, ih, List.range_succ]; simp

end Mqrstt
