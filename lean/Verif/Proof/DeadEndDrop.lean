import Verif.Proof.DeadEnd
import Verif.Proof.VerdictDrop
/-!
# Nothing is stuck for good after futures have been dropped (C116)
-/

namespace Mqrstt
namespace DeadEndDrop
open Mqrstt.Spec Mqrstt.Props _root_.Spec

/-- nothing in it is of a client -/
def NoUser (ob : List Obs) : Prop := ∀ x ∈ ob, ∀ e, x ≠ .user e

theorem NoUser.waiting {ob : List Obs} (h : NoUser ob) (tr : List Obs) : waitingCalls (tr ++ ob) = waitingCalls tr := by
  induction ob generalizing tr with
  | nil => simp
  | cons x ob ih =>
    have h1 : waitingCalls (tr ++ [x]) = waitingCalls tr := by
      have := h x (by simp)
      cases x <;> simp_all [waitingCalls]
    have h2 := ih (fun y hy => h y (by simp [hy])) (tr ++ [x])
    rw [h1] at h2
    simpa using h2

theorem kept_pending {s s' : Sys} (h : VerdictDrop.Kept s s') : s'.pending = s.pending := by
  rcases h with rfl | ⟨p, q, r, b, h⟩ | ⟨e, h⟩ | ⟨c, c', ps, h⟩
  · rfl
  · exact Sys.step_pending rfl h
  · exact Sys.step_pending rfl h
  · exact Sys.step_pending rfl h

/-! ## tokio -/

theorem tk_drop {s s' : TokioWire} {b : TokioBranch} {d : DropAt} {lost : Nat} {T : Times} {ob : List Obs}
    (h : s.drop b d lost T = some (s', ob)) : NoUser ob ∧ s'.net.run = none := by
  unfold TokioWire.drop TokioWire.dropRead TokioWire.dropOutgoing TokioWire.dropTimer at h
  simp only [TokioWire.cut] at h
  repeat' split at h
  all_goals first
    | (cases h; done)
    | (cases h; simp [NoUser])

theorem tk_dropConnect {s s' : Tokio} {i : TokioConnect} {d : ConnectDropAt} {ob : List Obs}
    (h : s.dropConnect i d = some (s', ob)) : NoUser ob := by
  have w : ∀ (ok : Nat → Bool) (ps : List Packet), NoUser (Tokio.writePackets ok i.times 0 ps) := by
    intro ok ps x hx
    obtain ⟨p, rfl⟩ := Tokio.writePackets_wrote _ _ _ _ x hx
    simp
  unfold Tokio.dropConnect at h
  dsimp only at h
  repeat' split at h
  all_goals first
    | (cases h; done)
    | (cases h; simp [NoUser]; done)
    | (cases h
       intro x hx
       simp only [List.mem_append, List.mem_cons, List.not_mem_nil, or_false] at hx
       rcases hx with ((rfl | rfl | rfl) | hx) | rfl
       · simp
       · simp
       · simp
       · exact w _ _ x hx
       · simp)

theorem tokio_more (o : Options) (t : Nat) (ops : List TokioWireOp) :
    (((TokioWire.new o t).runOps ops).1.net.view.running = true → ((TokioWire.new o t).runOps ops).1.net.view.live = true ∧
      ((TokioWire.new o t).runOps ops).1.net.view.sys.alive = true) ∧
    ((TokioWire.new o t).runOps ops).1.net.sys.pending.length = waitingCalls ((TokioWire.new o t).runOps ops).2 := by
  refine history_induct TokioWire.step (fun s tr => (s.net.view.running = true → s.net.view.live = true ∧ s.net.view.sys.alive = true) ∧
    s.net.sys.pending.length = waitingCalls tr) (s := TokioWire.new o t)
    ⟨fun h => Bool.noConfusion (show false = true from h), rfl⟩ ?_ ops
  rintro s tr op s' ob ⟨h1, h2⟩ hs
  cases op with
  | op op =>
    simp only [TokioWire.step] at hs
    split at hs
    · rename_i hn
      cases hs
      have hv := Tokio.step_vstep hn
      exact ⟨hv.running_ready h1, by
        have := hv.waitCount
        rw [waitingCalls_append, ← h2]
        exact this⟩
    · cases hs
  | drop b d lost T =>
    have hs : s.drop b d lost T = some (s', ob) := hs
    obtain ⟨h3, h4⟩ := tk_drop hs
    refine ⟨fun h => ?_, ?_⟩
    · simp [Tokio.view, h4] at h
    · rw [h3.waiting, kept_pending (VerdictDrop.tk_drop hs), h2]
  | dropConnect i d =>
    obtain ⟨i', obs', -, hn', -⟩ := TokioWire.dropConnect_failed hs
    have hv := Tokio.step_vstep hn'
    simp only [TokioWire.step] at hs
    split at hs
    · rename_i hn
      cases hs
      exact ⟨hv.running_ready h1, by rw [(tk_dropConnect hn).waiting, kept_pending (VerdictDrop.tk_dropConnect hn), h2]⟩
    · cases hs

/-- tokio with dropped futures -/
def tokioWireRuntime (clientId : Str) (calls : List Setter)
    (hopt : ∀ c, (Options.build clientId calls).connectPacket = .connect c → LegalConnect c) (t : Nat) : Runtime clientId calls :=
  tokioRuntimeOf clientId calls hopt
    (fun tr s => ∃ ops w, (TokioWire.new (Options.build clientId calls) t).runOps ops = (w, tr) ∧ w.net = s)
    (by
      rintro tr s ⟨ops, w, h, rfl⟩ hr
      obtain ⟨h1, h2, -⟩ := VerdictDrop.tokio_kept (Options.build clientId calls) t ops
      have h3 := tokio_wire_legalSys (clientId := clientId) (calls := calls) t ops
      rw [h] at h1 h2 h3
      refine ⟨h1 hr.usable, ?_, (h3 hr.legal).1⟩
      cases e : w.net.sys.pool.closed with
      | false => rfl
      | true => exact absurd (h2 e) hr.clients)
    (by
      rintro tr s ⟨ops, w, h, rfl⟩
      have h1 := (VerdictDrop.tokio_kept (Options.build clientId calls) t ops).2.2
      rw [h] at h1
      exact h1)
    (by
      rintro tr s ⟨ops, w, h, rfl⟩ hi
      have h1 := (tokio_more (Options.build clientId calls) t ops).1
      rw [h] at h1
      exact (h1 hi).1)
    (by
      rintro tr s ops s' obs ⟨ops0, w, h, rfl⟩ h'
      have e := TokioWire.runOps_op ops w
      have h' : w.net.runOps ops = (s', obs) := h'
      have h : history TokioWire.step (TokioWire.new (Options.build clientId calls) t) ops0 = (w, tr) := h
      rw [h'] at e
      refine ⟨ops0 ++ ops.map .op, (w.runOps (ops.map .op)).1, ?_, e.1⟩
      simp only [TokioWire.runOps] at e ⊢
      rw [history_append, h, ← e.2])

/-! ## smol -/

theorem sm_drop {s s' : SmolWire} {b : SmolBranch} {d : DropAt} {T : Times} {ob : List Obs}
    (h : s.drop b d T = some (s', ob)) : NoUser ob := by
  unfold SmolWire.drop SmolWire.dropRead SmolWire.dropOutgoing SmolWire.dropTimer at h
  simp only [SmolWire.cut] at h
  repeat' split at h
  all_goals first
    | (cases h; done)
    | (cases h; simp [NoUser])

theorem sm_dropConnect {s s' : Smol} {i : SmolConnect} {d : ConnectDropAt} {ob : List Obs}
    (h : s.dropConnect i d = some (s', ob)) : NoUser ob := by
  unfold Smol.dropConnect at h
  dsimp only at h
  repeat' split at h
  all_goals first
    | (cases h; done)
    | (cases h; simp [NoUser]; done)

theorem smol_more (c : Bool) (o : Options) (t : Nat) (ops : List SmolWireOp) :
    ((SmolWire.new c o t).runOps ops).1.net.Good ∧ ((SmolWire.new c o t).runOps ops).1.net.options = o ∧
    ((SmolWire.new c o t).runOps ops).1.net.sys.pending.length = waitingCalls ((SmolWire.new c o t).runOps ops).2 := by
  refine history_induct SmolWire.step (fun s tr => s.net.Good ∧ s.net.options = o ∧ s.net.sys.pending.length = waitingCalls tr)
    (s := SmolWire.new c o t) ⟨⟨rfl, by simp [SmolWire.new, Smol.new]⟩, rfl, rfl⟩ ?_ ops
  rintro s tr op s' ob ⟨h1, h2, h3⟩ hs
  cases op with
  | op op =>
    simp only [SmolWire.step] at hs
    split at hs
    · rename_i hn
      cases hs
      obtain ⟨hv, hg⟩ := Smol.step_vstep h1 hn
      exact ⟨hg, (Smol.step_options hn).trans h2, by
        have := hv.waitCount
        rw [waitingCalls_append, ← h3]
        exact this⟩
    · cases hs
  | drop b d T =>
    have hs : s.drop b d T = some (s', ob) := hs
    have hf := SmolWire.drop_facts hs
    exact ⟨hf.good h1, hf.options.trans h2, by rw [(sm_drop hs).waiting, kept_pending (VerdictDrop.sm_drop hs), h3]⟩
  | dropConnect i d =>
    obtain ⟨i', obs', -, hn', -⟩ := SmolWire.dropConnect_failed hs
    have hg := (Smol.step_vstep h1 hn').2
    simp only [SmolWire.step] at hs
    split at hs
    · rename_i hn
      cases hs
      exact ⟨hg, (Smol.step_options hn').trans h2, by rw [(sm_dropConnect hn).waiting, kept_pending (VerdictDrop.sm_dropConnect hn), h3]⟩
    · cases hs

/-- smol with dropped futures -/
def smolWireRuntime (clientId : Str) (calls : List Setter)
    (hopt : ∀ c, (Options.build clientId calls).connectPacket = .connect c → LegalConnect c) (checks : Bool) (t : Nat) :
    Runtime clientId calls :=
  smolRuntimeOf clientId calls hopt
    (fun tr s => ∃ ops w, (SmolWire.new checks (Options.build clientId calls) t).runOps ops = (w, tr) ∧ w.net = s)
    (by
      rintro tr s ⟨ops, w, h, rfl⟩ hr
      obtain ⟨h1, h2⟩ := VerdictDrop.smol_kept checks (Options.build clientId calls) t ops
      have h3 := smol_wire_legalSys (clientId := clientId) (calls := calls) checks t ops
      rw [h] at h1 h2 h3
      refine ⟨h1 hr.usable, ?_, (h3 hr.legal).1⟩
      cases e : w.net.sys.pool.closed with
      | false => rfl
      | true => exact absurd (h2 e) hr.clients)
    (by
      rintro tr s ⟨ops, w, h, rfl⟩
      have h1 := (smol_more checks (Options.build clientId calls) t ops).2.1
      rw [h] at h1
      exact h1)
    (by
      rintro tr s ⟨ops, w, h, rfl⟩
      have h1 := (smol_more checks (Options.build clientId calls) t ops).1
      rw [h] at h1
      exact h1)
    (by
      rintro tr s ops s' obs ⟨ops0, w, h, rfl⟩ h'
      have e := SmolWire.runOps_op ops w
      have h' : w.net.runOps ops = (s', obs) := h'
      have h : history SmolWire.step (SmolWire.new checks (Options.build clientId calls) t) ops0 = (w, tr) := h
      rw [h'] at e
      refine ⟨ops0 ++ ops.map .op, (w.runOps (ops.map .op)).1, ?_, e.1⟩
      simp only [SmolWire.runOps] at e ⊢
      rw [history_append, h, ← e.2])

end DeadEndDrop
end Mqrstt
