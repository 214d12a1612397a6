import Verif.Proof.ProgressDrop
import Verif.Proof.DisciplineDrop
/-!
# When a PINGREQ is due, in histories with dropped futures (C42)
-/

namespace Mqrstt
namespace SilenceDrop
open Mqrstt.Spec _root_.Spec KeepAliveDrop StartDrop DisciplineDrop

theorem cut {v w : View} {n : Nat} (h : Since v n) (hc : Cut v w) : Since w n := by
  refine ⟨by rw [hc.last]; exact h.action, fun t ht => ?_⟩
  rcases hc.await with e | e
  · rw [e] at ht; cases ht
  · exact h.await t (e ▸ ht)

/-- a dropped `connect` that has written nothing has changed nothing -/
theorem tk_quiet {s s' : Tokio} {i : TokioConnect} {d : ConnectDropAt} {ob : List Obs} (h : s.dropConnect i d = some (s', ob))
    (hw : ∀ x ∈ ob, isWrote x = false) : s'.lastAction = s.lastAction ∧ s'.run = s.run := by
  simp only [Tokio.dropConnect] at h
  repeat' split at h
  all_goals first
    | (cases h; done)
    | (cases h; exact ⟨rfl, rfl⟩)
    | (cases h; simp [isWrote] at hw; done)

theorem sm_quiet {s s' : Smol} {i : SmolConnect} {d : ConnectDropAt} {ob : List Obs} (h : s.dropConnect i d = some (s', ob))
    (hw : ∀ x ∈ ob, isWrote x = false) : s'.lastAction = s.lastAction ∧ s'.await = s.await := by
  simp only [Smol.dropConnect] at h
  repeat' split at h
  all_goals first
    | (cases h; done)
    | (cases h; exact ⟨rfl, rfl⟩)
    | (cases h; simp [isWrote] at hw; done)

theorem tokio {s : TokioWire} {n : Nat} (h : Since s.net.view n) (ops : List TokioWireOp) :
    (∀ x ∈ (s.runOps ops).2, isWrote x = false) → Since (s.runOps ops).1.net.view n := by
  refine history_induct TokioWire.step (fun s tr => (∀ x ∈ tr, isWrote x = false) → Since s.net.view n) (fun _ => h) ?_ ops
  intro s tr op s' ob ih hs hw
  have ih := ih fun x hx => hw x (by simp [hx])
  have hw : ∀ x ∈ ob, isWrote x = false := fun x hx => hw x (by simp [hx])
  cases op with
  | op op =>
    simp only [TokioWire.step] at hs
    split at hs
    · rename_i hn
      cases hs
      exact (Tokio.step_vstep hn).since hw (.inl rfl) ih
    · cases hs
  | drop b d lost T => exact cut ih (tk_cut hs).1
  | dropConnect i d =>
    simp only [TokioWire.step] at hs
    split at hs
    · rename_i hd
      cases hs
      obtain ⟨h1, h2⟩ := tk_quiet hd hw
      obtain ⟨h3, h4⟩ := ih
      refine ⟨?_, ?_⟩
      · simpa only [Tokio.view, h1] using h3
      · simpa only [Tokio.view, h2] using h4
    · cases hs

theorem smol {s : SmolWire} {n : Nat} (hg : s.net.Good) (h : Since s.net.view n) (ops : List SmolWireOp) :
    (∀ x ∈ (s.runOps ops).2, isWrote x = false) → (∀ x ∈ (s.runOps ops).2, isRead x = false) → Since (s.runOps ops).1.net.view n := by
  have := history_induct SmolWire.step (fun s tr => s.net.Good ∧ ((∀ x ∈ tr, isWrote x = false) → (∀ x ∈ tr, isRead x = false) →
    Since s.net.view n)) (s := s) ⟨hg, fun _ _ => h⟩ ?_ ops
  · exact this.2
  rintro s tr op s' ob ⟨hg, ih⟩ hs
  have ih : (∀ x ∈ tr ++ ob, isWrote x = false) → (∀ x ∈ tr ++ ob, isRead x = false) → Since s.net.view n :=
    fun h1 h2 => ih (fun x hx => h1 x (by simp [hx])) fun x hx => h2 x (by simp [hx])
  cases op with
  | op op =>
    simp only [SmolWire.step] at hs
    split at hs
    · rename_i hn
      cases hs
      obtain ⟨hv, hg⟩ := Smol.step_vstep hg hn
      exact ⟨hg, fun h1 h2 => hv.since (fun x hx => h1 x (by simp [hx])) (.inr fun x hx => h2 x (by simp [hx])) (ih h1 h2)⟩
    · cases hs
  | drop b d T =>
    have hs : s.drop b d T = some (s', ob) := hs
    exact ⟨(SmolWire.drop_facts hs).good hg, fun h1 h2 => cut (ih h1 h2) (sm_cut hs).1⟩
  | dropConnect i d =>
    obtain ⟨i', obs', -, hn', -⟩ := SmolWire.dropConnect_failed hs
    have hg' := (Smol.step_vstep hg hn').2
    simp only [SmolWire.step] at hs
    split at hs
    · rename_i hd
      cases hs
      refine ⟨hg', fun h1 h2 => ?_⟩
      obtain ⟨e1, e2⟩ := sm_quiet hd fun x hx => h1 x (by simp [hx])
      obtain ⟨h3, h4⟩ := ih h1 h2
      refine ⟨?_, ?_⟩
      · simpa only [Smol.view, e1] using h3
      · simpa only [Smol.view, e2] using h4
    · cases hs

theorem smol_good (k : Bool) (o : Options) (t : Nat) (ops : List SmolWireOp) : ((SmolWire.new k o t).runOps ops).1.net.Good := by
  refine history_induct SmolWire.step (fun s _ => s.net.Good) (s := SmolWire.new k o t) ⟨rfl, by simp [SmolWire.new, Smol.new]⟩ ?_ ops
  intro s tr op s' ob hg hs
  cases op with
  | op op =>
    simp only [SmolWire.step] at hs
    split at hs
    · rename_i hn
      cases hs
      exact (Smol.step_vstep hg hn).2
    · cases hs
  | drop b d T =>
    have hs : s.drop b d T = some (s', ob) := hs
    exact (SmolWire.drop_facts hs).good hg
  | dropConnect i d =>
    obtain ⟨i', obs', -, hn', -⟩ := SmolWire.dropConnect_failed hs
    exact (Smol.step_vstep hg hn').2

end SilenceDrop
end Mqrstt
