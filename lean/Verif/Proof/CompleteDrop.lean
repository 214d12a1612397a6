import Verif.Proof.DisciplineDrop
/-!
# What follows a DISCONNECT, in histories with dropped futures (C37)
-/

namespace Mqrstt
namespace CompleteDrop
open Mqrstt.Spec _root_.Spec KeepAliveDrop StartDrop DisciplineDrop

/-- what follows a DISCONNECT -/
def Follows (_ : List Obs) (x : Obs) (post : List Obs) : Prop :=
  (∀ d, x = .read (.disconnect d) →
    [.delivered (.disconnect d), .ended (.status .incomingDisconnect)] <+: post ∨
      [.connectFailed (.notConnAck (.disconnect d))] <+: post ∨ [.cancelled] <+: post) ∧
  (∀ d a b, x = .wrote (.disconnect d) a b →
    [.ended (.status .outgoingDisconnect)] <+: post ∨
      (.disconnect d = keepAliveDisconnect ∧ [.ended (.status .keepAliveTimeout)] <+: post))

theorem append {tr ob : List Obs} (h1 : AllPos Follows tr) (h2 : AllPos Follows ob) : AllPos Follows (tr ++ ob) := by
  intro pre x post e
  rcases split e with ⟨post', e'⟩ | ⟨o1, rfl, rfl⟩
  · have : post = post' ++ ob := by
      rw [e', List.append_assoc, List.append_cancel_left_eq, List.cons_append] at e
      exact (List.cons.inj e).2.symm
    subst this
    obtain ⟨h3, h4⟩ := h1 _ _ _ e'
    refine ⟨fun d hd => ?_, fun d a b hd => ?_⟩
    · rcases h3 d hd with h | h | h
      · exact .inl (prefix_right _ h)
      · exact .inr (.inl (prefix_right _ h))
      · exact .inr (.inr (prefix_right _ h))
    · exact (h4 d a b hd).imp (prefix_right _) fun h => ⟨h.1, prefix_right _ h.2⟩
  · exact ⟨(h2 _ _ _ rfl).1, (h2 _ _ _ rfl).2⟩

theorem vstep {fl v o w} (h : VStep fl v o w) : AllPos Follows o := fun o1 x o2 e =>
  ⟨fun d hd => (h.readDisconnect o1 x o2 e d hd).imp id .inl, h.wroteDisconnect o1 x o2 e⟩

theorem short {ob : List Obs} (h : Short ob) : AllPos Follows ob := by
  rcases h with rfl | ⟨p, rfl | ⟨hp, rfl⟩⟩
  · simp [Follows]
  · simp [Follows]
  · cases p <;> first | (simp [Packet.isDisconnect] at hp; done) | simp [Follows]

theorem dialled {ob : List Obs} (h : Dialled ob) : AllPos Follows ob := by
  cases h with
  | early => simp [Follows]
  | asked => simp [Follows]
  | told => simp [Follows]
  | resent c a b k T ws hk hw =>
    simp only [List.cons_append, List.nil_append, allPos_cons]
    refine ⟨by simp [Follows], by simp [Follows], by simp [Follows], allPos_wrotes ?_ (by simp [Follows])⟩
    intro p hp o1 o2
    refine ⟨by simp, fun d a b e => ?_⟩
    have := hw p hp
    cases e
    simp [Packet.resent] at this

theorem tokio (o : Options) (t : Nat) (ops : List TokioWireOp) : AllPos Follows ((TokioWire.new o t).runOps ops).2 := by
  refine history_induct TokioWire.step (fun _ tr => AllPos Follows tr) (s := TokioWire.new o t) (by simp) ?_ ops
  intro s tr op s' ob h hs
  refine append h ?_
  cases op with
  | op op =>
    simp only [TokioWire.step] at hs
    split at hs
    · rename_i hn
      cases hs
      exact vstep (Tokio.step_vstep hn)
    · cases hs
  | drop b d lost T => exact short (tk_short hs)
  | dropConnect i d =>
    simp only [TokioWire.step] at hs
    split at hs
    · rename_i hd
      cases hs
      exact dialled (tk_dialled hd).1
    · cases hs

theorem smol (k : Bool) (o : Options) (t : Nat) (ops : List SmolWireOp) : AllPos Follows ((SmolWire.new k o t).runOps ops).2 := by
  have := history_induct SmolWire.step (fun s tr => s.net.Good ∧ AllPos Follows tr) (s := SmolWire.new k o t)
    ⟨⟨rfl, by simp [SmolWire.new, Smol.new]⟩, by simp⟩ ?_ ops
  · exact this.2
  rintro s tr op s' ob ⟨hg, h⟩ hs
  cases op with
  | op op =>
    simp only [SmolWire.step] at hs
    split at hs
    · rename_i hn
      cases hs
      obtain ⟨hv, hg⟩ := Smol.step_vstep hg hn
      exact ⟨hg, append h (vstep hv)⟩
    · cases hs
  | drop b d T =>
    have hs : s.drop b d T = some (s', ob) := hs
    exact ⟨(SmolWire.drop_facts hs).good hg, append h (short (sm_short hs))⟩
  | dropConnect i d =>
    obtain ⟨i', obs', -, hn', -⟩ := SmolWire.dropConnect_failed hs
    have hg' := (Smol.step_vstep hg hn').2
    simp only [SmolWire.step] at hs
    split at hs
    · rename_i hd
      cases hs
      exact ⟨hg', append h (dialled (sm_dialled hd).1)⟩
    · cases hs

end CompleteDrop
end Mqrstt
