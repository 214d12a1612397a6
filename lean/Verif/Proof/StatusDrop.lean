import Verif.Proof.StartDrop
import Verif.Proof.Interrupt
/-!
# What `run` reports in histories with dropped futures (C37)
-/

namespace Mqrstt
namespace StatusDrop
open Mqrstt.Spec Mqrstt.Props _root_.Spec KeepAliveDrop StartDrop

/-- every status reported is true -/
def Truthful (tr : List Obs) : Prop := ∀ pre post st, tr = pre ++ Obs.ended (.status st) :: post → StatusReason pre st

theorem queued {o s tr sops} (h : Interrupted o s tr sops) (ha : s.alive = true) : ∀ p ∈ s.queue, p ∈ submittedIn tr := by
  obtain ⟨⟨rest, hr, hq⟩, -⟩ := C39_fifo o.config sops
  intro p hp
  rw [h.sys] at ha hp
  rw [h.submitted, hr, hq ha]
  simp [hp]

theorem Truthful.vstep {fl o v w tr ob sops} (h : Truthful tr) (hi : Interrupted o v.sys tr sops) (h2 : VStep fl v ob w) :
    Truthful (tr ++ ob) := by
  intro pre post st e
  rcases split e with ⟨post', e⟩ | ⟨o1, rfl, rfl⟩
  · exact h _ _ _ e
  · have hb := h2.status _ _ _ rfl _ rfl
    cases st with
    | incomingDisconnect => obtain ⟨d, hd⟩ := hb; exact ⟨d, suffix_left _ hd⟩
    | keepAliveTimeout => obtain ⟨a, b, hd⟩ := hb; exact ⟨a, b, suffix_left _ hd⟩
    | shutdownSignal => exact hb
    | outgoingDisconnect =>
      obtain ⟨d, a, b, hd⟩ := hb
      refine ⟨d, a, b, suffix_left _ hd, ?_⟩
      have hq := outgoingDisconnect h2 hd
      rw [submittedIn_append]
      exact List.mem_append_left _ (queued hi hq.1 _ hq.2)

theorem Truthful.other {tr ob} (h : Truthful tr) (hn : ∀ st, Obs.ended (.status st) ∉ ob) : Truthful (tr ++ ob) := by
  intro pre post st e
  rcases split e with ⟨post', e⟩ | ⟨o1, rfl, rfl⟩
  · exact h _ _ _ e
  · exact absurd (by simp) (hn st)

theorem tokio (o : Options) (t : Nat) (ops : List TokioWireOp) : Truthful ((TokioWire.new o t).runOps ops).2 := by
  have := history_induct TokioWire.step (fun s tr => (∃ sops, Interrupted o s.net.view.sys tr sops) ∧ Truthful tr) (s := TokioWire.new o t)
    ⟨⟨[], .init o t⟩, fun _ _ _ e => by simp at e⟩ ?_ ops
  · exact this.2
  rintro s tr op s' ob ⟨⟨sops, h1⟩, h2⟩ hs
  cases op with
  | op op =>
    simp only [TokioWire.step] at hs
    split at hs
    · rename_i hn
      cases hs
      have hv := Tokio.step_vstep hn
      exact ⟨Interrupted.vstep (v := s.net.view) h1 hv, h2.vstep h1 hv⟩
    · cases hs
  | drop b d lost T =>
    have hs : s.drop b d lost T = some (s', ob) := hs
    obtain ⟨hl, -⟩ := TokioWire.drop_link hs
    exact ⟨h1.cut hl, h2.other fun st => (tk_cut hs).2.no_end _⟩
  | dropConnect i d =>
    obtain ⟨i', obs', -, hn', -⟩ := TokioWire.dropConnect_failed hs
    simp only [TokioWire.step] at hs
    split at hs
    · rename_i hd
      cases hs
      obtain ⟨hl, -⟩ := Tokio.dropConnect_link hd
      exact ⟨h1.cut hl, h2.other fun st => tk_ended hd⟩
    · cases hs

theorem smol (k : Bool) (o : Options) (t : Nat) (ops : List SmolWireOp) : Truthful ((SmolWire.new k o t).runOps ops).2 := by
  have := history_induct SmolWire.step (fun s tr => s.net.Good ∧ (∃ sops, Interrupted o s.net.view.sys tr sops) ∧ Truthful tr) (s := SmolWire.new k o t)
    ⟨⟨rfl, by simp [SmolWire.new, Smol.new]⟩, ⟨[], .init o t⟩, fun _ _ _ e => by simp at e⟩ ?_ ops
  · exact this.2.2
  rintro s tr op s' ob ⟨hg, ⟨sops, h1⟩, h2⟩ hs
  cases op with
  | op op =>
    simp only [SmolWire.step] at hs
    split at hs
    · rename_i hn
      cases hs
      obtain ⟨hv, hg⟩ := Smol.step_vstep hg hn
      exact ⟨hg, Interrupted.vstep (v := s.net.view) h1 hv, h2.vstep h1 hv⟩
    · cases hs
  | drop b d T =>
    have hs : s.drop b d T = some (s', ob) := hs
    obtain ⟨hl, -⟩ := SmolWire.drop_link hs
    exact ⟨(SmolWire.drop_facts hs).good hg, h1.cut hl, h2.other fun st => (sm_cut hs).2.no_end _⟩
  | dropConnect i d =>
    obtain ⟨i', obs', -, hn', -⟩ := SmolWire.dropConnect_failed hs
    simp only [SmolWire.step] at hs
    split at hs
    · rename_i hd
      cases hs
      obtain ⟨hl, -⟩ := Smol.dropConnect_link hd
      exact ⟨(Smol.step_vstep hg hn').2, h1.cut hl, h2.other fun st => sm_ended hd⟩
    · cases hs

end StatusDrop
end Mqrstt
