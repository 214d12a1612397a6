import Verif.Proof.Interrupt
import Verif.Proof.Calm
import Verif.Proof.Pieces
/-!
# What makes `run` and `connect` panic after futures have been dropped (C117)
-/

namespace Mqrstt
namespace PanicDrop
open Mqrstt.Spec Mqrstt.Props _root_.Spec

theorem tk_drop {s s' : TokioWire} {b : TokioBranch} {d : DropAt} {lost : Nat} {T : Times} {ob : List Obs}
    (h : s.drop b d lost T = some (s', ob)) : .ended .panicked ∉ ob ∧ .connectPanicked ∉ ob := by
  unfold TokioWire.drop TokioWire.dropRead TokioWire.dropOutgoing TokioWire.dropTimer at h
  simp only [TokioWire.cut] at h
  repeat' split at h
  all_goals first
    | (cases h; done)
    | (cases h; simp)

theorem tk_dropConnect {s s' : Tokio} {i : TokioConnect} {d : ConnectDropAt} {ob : List Obs}
    (h : s.dropConnect i d = some (s', ob)) : .ended .panicked ∉ ob ∧ .connectPanicked ∉ ob := by
  have w : ∀ (ok : Nat → Bool) (ps : List Packet) x, x ∈ Tokio.writePackets ok i.times 0 ps → x ≠ .ended .panicked ∧ x ≠ .connectPanicked := by
    intro ok ps x hx
    obtain ⟨p, rfl⟩ := Tokio.writePackets_wrote _ _ _ _ x hx
    simp
  unfold Tokio.dropConnect at h
  dsimp only at h
  repeat' split at h
  all_goals first
    | (cases h; done)
    | (cases h; simp; done)
    | (cases h
       simp only [List.mem_append, List.mem_cons, reduceCtorEq, List.not_mem_nil, or_false, false_or]
       exact ⟨fun hm => (w _ _ _ hm).1 rfl, fun hm => (w _ _ _ hm).2 rfl⟩)

theorem tk_step {s s' : TokioWire} {op : TokioWireOp} {ob : List Obs} (h : s.step op = some (s', ob)) :
    (∃ op', op = .op op' ∧ s.net.step op' = some (s'.net, ob)) ∨ (.ended .panicked ∉ ob ∧ .connectPanicked ∉ ob) := by
  cases op with
  | op op =>
    simp only [TokioWire.step] at h
    split at h
    · rename_i hn
      cases h
      exact .inl ⟨_, rfl, hn⟩
    · cases h
  | drop b d lost T => exact .inr (tk_drop (show s.drop b d lost T = some (s', ob) from h))
  | dropConnect i d =>
    simp only [TokioWire.step] at h
    split at h
    · rename_i hn
      cases h
      exact .inr (tk_dropConnect hn)
    · cases h

theorem tk_reach (o : Options) (t : Nat) (ops : List TokioWireOp) :
    ∃ sops, ((TokioWire.new o t).runOps ops).1.net.sys = client o.config sops :=
  (tokio_interrupted o t ops).1.imp fun _ h => h.sys

theorem sm_drop {s s' : SmolWire} {b : SmolBranch} {d : DropAt} {T : Times} {ob : List Obs}
    (h : s.drop b d T = some (s', ob)) : .ended .panicked ∉ ob ∧ .connectPanicked ∉ ob := by
  unfold SmolWire.drop SmolWire.dropRead SmolWire.dropOutgoing SmolWire.dropTimer at h
  simp only [SmolWire.cut] at h
  repeat' split at h
  all_goals first
    | (cases h; done)
    | (cases h; simp)

theorem sm_dropConnect {s s' : Smol} {i : SmolConnect} {d : ConnectDropAt} {ob : List Obs}
    (h : s.dropConnect i d = some (s', ob)) : .ended .panicked ∉ ob ∧ .connectPanicked ∉ ob := by
  unfold Smol.dropConnect at h
  dsimp only at h
  repeat' split at h
  all_goals first
    | (cases h; done)
    | (cases h; simp; done)

theorem sm_step {s s' : SmolWire} {op : SmolWireOp} {ob : List Obs} (h : s.step op = some (s', ob)) :
    (∃ op', op = .op op' ∧ s.net.step op' = some (s'.net, ob)) ∨ (.ended .panicked ∉ ob ∧ .connectPanicked ∉ ob) := by
  cases op with
  | op op =>
    simp only [SmolWire.step] at h
    split at h
    · rename_i hn
      cases h
      exact .inl ⟨_, rfl, hn⟩
    · cases h
  | drop b d T => exact .inr (sm_drop (show s.drop b d T = some (s', ob) from h))
  | dropConnect i d =>
    simp only [SmolWire.step] at h
    split at h
    · rename_i hn
      cases h
      exact .inr (sm_dropConnect hn)
    · cases h

theorem sm_drop_checks {s s' : SmolWire} {b : SmolBranch} {d : DropAt} {T : Times} {ob : List Obs}
    (h : s.drop b d T = some (s', ob)) : s'.net.checks = s.net.checks := by
  unfold SmolWire.drop SmolWire.dropRead SmolWire.dropOutgoing SmolWire.dropTimer at h
  simp only [SmolWire.cut] at h
  repeat' split at h
  all_goals first
    | (cases h; done)
    | (cases h; rfl)

/-- the overflow checks stay as they were compiled, and between the steps nothing is left to be written -/
theorem sm_good (c : Bool) (o : Options) (t : Nat) (ops : List SmolWireOp) :
    ((SmolWire.new c o t).runOps ops).1.net.checks = c ∧ ((SmolWire.new c o t).runOps ops).1.net.Good := by
  refine history_induct SmolWire.step (fun s _ => s.net.checks = c ∧ s.net.Good) (s := SmolWire.new c o t)
    ⟨rfl, rfl, by simp [SmolWire.new, Smol.new]⟩ ?_ ops
  rintro s tr op s' ob ⟨h1, h2⟩ hs
  cases op with
  | op op =>
    simp only [SmolWire.step] at hs
    split at hs
    · rename_i hn
      cases hs
      exact ⟨(Smol.step_checks hn).trans h1, (Smol.step_vstep h2 hn).2⟩
    · cases hs
  | drop b d T =>
    have hs : s.drop b d T = some (s', ob) := hs
    exact ⟨(sm_drop_checks hs).trans h1, (SmolWire.drop_facts hs).good h2⟩
  | dropConnect i d =>
    obtain ⟨i', obs', -, hn, -⟩ := SmolWire.dropConnect_failed hs
    exact ⟨(Smol.step_checks hn).trans h1, (Smol.step_vstep h2 hn).2⟩

theorem sm_reach (c : Bool) (o : Options) (t : Nat) (ops : List SmolWireOp) :
    ∃ sops, ((SmolWire.new c o t).runOps ops).1.net.sys = client o.config sops :=
  (smol_interrupted c o t ops).1.imp fun _ h => h.sys

end PanicDrop
end Mqrstt
