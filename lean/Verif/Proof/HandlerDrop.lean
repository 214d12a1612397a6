import Verif.Proof.KeepAliveDrop
import Verif.Proof.Positions
/-!
# The handler and the acknowledgements in histories with dropped futures (C38)
-/

namespace Mqrstt
namespace HandlerDrop
open Mqrstt.Spec _root_.Spec

/-- what the handler sees was just read, and an acknowledgement follows what it acknowledges -/
def Told (o1 : List Obs) (x : Obs) (o2 : List Obs) : Prop := PDelivered o1 x o2 ∧ PAck o1 x o2

theorem told_append {tr ob : List Obs} (h : AllPos Told tr) (h' : AllPos Told ob) : AllPos Told (tr ++ ob) := by
  intro pre x post e
  rcases KeepAliveDrop.split e with ⟨post', e1⟩ | ⟨o1, rfl, e1⟩
  · exact ⟨(h _ _ _ e1).1, (h _ _ _ e1).2⟩
  · obtain ⟨h1, h2⟩ := h' _ _ _ e1
    refine ⟨fun p hp => suffix_left _ (h1 p hp), ?_⟩
    intro p a b hx
    have h2 := h2 p a b hx
    cases p <;> try trivial
    case pubAck => obtain ⟨q, h3, h4, h5⟩ := h2; exact ⟨q, h3, h4, suffix_left _ h5⟩
    case pubRec => obtain ⟨q, h3, h4, h5⟩ := h2; exact ⟨q, h3, h4, h5.imp (suffix_left _) (suffix_left _)⟩
    case pubComp => obtain ⟨q, h3, h5⟩ := h2; exact ⟨q, h3, suffix_left _ h5⟩

theorem told_step {fl v o w} (hu : v.sys.Users) (h : VStep fl v o w) : AllPos Told o :=
  fun _ _ _ e => ⟨h.delivered _ _ _ e, h.acks hu _ _ _ e⟩

/-- what is observed when `run` is dropped -/
def Shown (ob : List Obs) : Prop := ob = [.cancelled] ∨ ∃ p, ob = [.read p, .cancelled] ∨ ob = [.read p, .delivered p, .cancelled]

theorem Shown.told {ob : List Obs} (h : Shown ob) : AllPos Told ob := by
  rcases h with rfl | ⟨p, rfl | rfl⟩ <;> simp [Told, PDelivered, PAck]

theorem allPos_rest {a b : List Obs} (h : AllPos PDelivered a) (hb : ∀ x ∈ b, ∀ p, x ≠ .delivered p) : AllPos PDelivered (a ++ b) := by
  intro pre x post e
  rcases KeepAliveDrop.split e with ⟨post', e⟩ | ⟨o1, rfl, rfl⟩
  · exact show PDelivered pre x post' from h _ _ _ e
  · exact fun p hx => absurd hx (hb x (by simp) p)

theorem told_attempt {fl v ob ob' w} (hu : v.sys.Users) (h : VStep fl v ob' w) (hw : writtenIn ob' = writtenIn ob)
    (hr : readIn ob' = readIn ob) (hc : ∀ p, .read p ∈ ob → ∃ c, p = .connAck c) (hd : AllPos PDelivered ob) : AllPos Told ob := by
  intro o1 x o2 e
  refine ⟨hd _ _ _ e, ?_⟩
  intro p a b hx
  have hm : p ∈ writtenIn ob' := by
    rw [hw, e, hx]
    simp [writtenIn]
  obtain ⟨y, hy, hy'⟩ := List.mem_filterMap.1 hm
  cases y <;> simp at hy'
  rw [hy'] at hy
  obtain ⟨q1, q2, e'⟩ := List.append_of_mem hy
  have hp := h.acks hu _ _ _ e' _ _ _ rfl
  have no : ∀ p, .read p ∈ q1 → ∃ c, p = .connAck c := by
    intro p hp
    have : p ∈ readIn ob' := List.mem_filterMap.2 ⟨.read p, by rw [e']; simp [hp], rfl⟩
    rw [hr] at this
    obtain ⟨z, hz, hz'⟩ := List.mem_filterMap.1 this
    cases z <;> simp at hz'
    subst hz'
    exact hc _ hz
  cases p <;> try trivial
  case pubAck => obtain ⟨q, -, -, h5⟩ := hp; obtain ⟨c, hc⟩ := no (.publish q) (h5.subset (by simp)); cases hc
  case pubRec =>
    obtain ⟨q, -, -, h5⟩ := hp
    obtain ⟨c, hc⟩ := no (.publish q) (by rcases h5 with h5 | h5 <;> exact h5.subset (by simp))
    cases hc
  case pubComp => obtain ⟨q, -, h5⟩ := hp; obtain ⟨c, hc⟩ := no (.pubRel q) (h5.subset (by simp)); cases hc

theorem tk_shown {s s' : TokioWire} {b : TokioBranch} {d : DropAt} {lost : Nat} {T : Times} {ob : List Obs}
    (h : s.drop b d lost T = some (s', ob)) : Shown ob := by
  unfold TokioWire.drop TokioWire.dropRead TokioWire.dropOutgoing TokioWire.dropTimer at h
  simp only [TokioWire.cut] at h
  repeat' split at h
  all_goals first
    | (cases h; done)
    | (cases h
       first
         | exact .inl rfl
         | exact .inr ⟨_, .inl rfl⟩
         | exact .inr ⟨_, .inr rfl⟩)

theorem tk_reads {s s' : Tokio} {i : TokioConnect} {d : ConnectDropAt} {ob : List Obs} (h : s.dropConnect i d = some (s', ob)) :
    (∀ p, .read p ∈ ob → ∃ c, p = .connAck c) ∧ AllPos PDelivered ob := by
  simp only [Tokio.dropConnect] at h
  repeat' split at h
  all_goals first
    | (cases h; done)
    | (cases h; refine ⟨?_, ?_⟩ <;> simp [PDelivered]; done)
    | (cases h; split <;> refine ⟨?_, ?_⟩ <;> simp [PDelivered]; done)
    | (cases h
       refine ⟨?_, ?_⟩
       · intro p hm
         simp only [List.mem_append, List.mem_cons, List.not_mem_nil, or_false, reduceCtorEq, false_or] at hm
         rcases hm with hm | hm
         · exact ⟨_, by simpa using hm⟩
         · obtain ⟨p, e⟩ := Tokio.writePackets_wrote _ _ _ _ _ hm
           cases e
       · rw [List.append_assoc]
         refine allPos_rest (by simp [PDelivered]) ?_
         intro x hx p e
         subst e
         rcases List.mem_append.1 hx with hx | hx
         · obtain ⟨p, e⟩ := Tokio.writePackets_wrote _ _ _ _ _ hx
           cases e
         · simp at hx)

theorem tokio (o : Options) (t : Nat) (ops : List TokioWireOp) : AllPos Told ((TokioWire.new o t).runOps ops).2 := by
  have := history_induct TokioWire.step (fun s tr => s.net.view.sys.Users ∧ AllPos Told tr) (s := TokioWire.new o t)
    ⟨.init o, by simp⟩ ?_ ops
  · exact this.2
  rintro s tr op s' ob ⟨h1, h2⟩ hs
  cases op with
  | op op =>
    simp only [TokioWire.step] at hs
    split at hs
    · rename_i hn
      cases hs
      have hv := Tokio.step_vstep hn
      exact ⟨ConnectsDrop.VStep.users hv h1, told_append h2 (told_step h1 hv)⟩
    · cases hs
  | drop b d lost T =>
    have hs : s.drop b d lost T = some (s', ob) := hs
    have hf := TokioWire.drop_facts hs
    exact ⟨ConnectsDrop.Quietly.users hf.sys h1, told_append h2 (tk_shown hs).told⟩
  | dropConnect i d =>
    obtain ⟨i', obs', -, hn', -, hsame, -⟩ := TokioWire.dropConnect_failed hs
    simp only [TokioWire.step] at hs
    split at hs
    · rename_i hd
      cases hs
      have hv := Tokio.step_vstep hn'
      exact ⟨ConnectsDrop.VStep.users hv h1,
        told_append h2 (told_attempt h1 hv hsame.written hsame.read (tk_reads hd).1 (tk_reads hd).2)⟩
    · cases hs

theorem sm_shown {s s' : SmolWire} {b : SmolBranch} {d : DropAt} {T : Times} {ob : List Obs}
    (h : s.drop b d T = some (s', ob)) : Shown ob := by
  unfold SmolWire.drop SmolWire.dropRead SmolWire.dropOutgoing SmolWire.dropTimer at h
  simp only [SmolWire.cut] at h
  repeat' split at h
  all_goals first
    | (cases h; done)
    | (cases h
       first
         | exact .inl rfl
         | exact .inr ⟨_, .inl rfl⟩
         | exact .inr ⟨_, .inr rfl⟩)

theorem sm_reads {s s' : Smol} {i : SmolConnect} {d : ConnectDropAt} {ob : List Obs} (h : s.dropConnect i d = some (s', ob)) :
    (∀ p, .read p ∈ ob → ∃ c, p = .connAck c) ∧ AllPos PDelivered ob := by
  simp only [Smol.dropConnect] at h
  repeat' split at h
  all_goals first
    | (cases h; done)
    | (cases h; refine ⟨?_, ?_⟩ <;> simp [PDelivered]; done)
    | (cases h; split <;> refine ⟨?_, ?_⟩ <;> simp [PDelivered]; done)
    | (cases h
       refine ⟨?_, ?_⟩
       · intro p hm
         simp only [List.mem_append, List.mem_cons, List.not_mem_nil, or_false, reduceCtorEq, false_or] at hm
         rcases hm with hm | hm
         · exact ⟨_, by simpa using hm⟩
         · obtain ⟨p, e⟩ := Tokio.writePackets_wrote _ _ _ _ _ hm
           cases e
       · rw [List.append_assoc]
         refine allPos_rest (by simp [PDelivered]) ?_
         intro x hx p e
         subst e
         rcases List.mem_append.1 hx with hx | hx
         · obtain ⟨p, e⟩ := Tokio.writePackets_wrote _ _ _ _ _ hx
           cases e
         · simp at hx)

theorem smol (k : Bool) (o : Options) (t : Nat) (ops : List SmolWireOp) : AllPos Told ((SmolWire.new k o t).runOps ops).2 := by
  have := history_induct SmolWire.step (fun s tr => s.net.Good ∧ s.net.view.sys.Users ∧ AllPos Told tr) (s := SmolWire.new k o t)
    ⟨⟨rfl, by simp [SmolWire.new, Smol.new]⟩, .init o, by simp⟩ ?_ ops
  · exact this.2.2
  rintro s tr op s' ob ⟨hg, h1, h2⟩ hs
  cases op with
  | op op =>
    simp only [SmolWire.step] at hs
    split at hs
    · rename_i hn
      cases hs
      obtain ⟨hv, hg⟩ := Smol.step_vstep hg hn
      exact ⟨hg, ConnectsDrop.VStep.users hv h1, told_append h2 (told_step h1 hv)⟩
    · cases hs
  | drop b d T =>
    have hs : s.drop b d T = some (s', ob) := hs
    have hf := SmolWire.drop_facts hs
    exact ⟨hf.good hg, ConnectsDrop.Quietly.users hf.sys h1, told_append h2 (sm_shown hs).told⟩
  | dropConnect i d =>
    obtain ⟨i', obs', -, hn', -, hsame, -⟩ := SmolWire.dropConnect_failed hs
    simp only [SmolWire.step] at hs
    split at hs
    · rename_i hd
      cases hs
      obtain ⟨hv, hg⟩ := Smol.step_vstep hg hn'
      exact ⟨hg, ConnectsDrop.VStep.users hv h1,
        told_append h2 (told_attempt h1 hv hsame.written hsame.read (sm_reads hd).1 (sm_reads hd).2)⟩
    · cases hs

end HandlerDrop
end Mqrstt
