import Verif.Spec.DisciplineDrop
import Verif.Proof.Discipline
import Verif.Proof.StartDrop
/-!
# The rules of a conversation in histories with dropped futures (C56)
-/

namespace Mqrstt
namespace DisciplineDrop
open Mqrstt.Spec _root_.Spec KeepAliveDrop StartDrop

theorem after_append (s : Conv) (a b : List Obs) :
    s.afterDropping (a ++ b) = (s.afterDropping a).bind fun s' => s'.afterDropping b := by
  induction a generalizing s with
  | nil => rfl
  | cons x a ih =>
    simp only [List.cons_append, Conv.afterDropping]
    cases s.nextDropping x with
    | none => rfl
    | some s' => exact ih s'

/-- what the stricter rules allow is allowed -/
theorem next_dropping {s s' : Conv} {x : Obs} (h : s.next x = some s') : s.nextDropping x = some s' := by
  cases x
  case cancelled =>
    obtain ⟨ph, up⟩ := s
    cases ph <;> simp [Conv.next] at h
    subst h
    rfl
  all_goals exact h

theorem after_dropping {s s' : Conv} {tr : List Obs} (h : s.after tr = some s') : s.afterDropping tr = some s' := by
  induction tr generalizing s with
  | nil => exact h
  | cons x tr ih =>
    simp only [Conv.after] at h
    split at h
    · cases h
    · rename_i s1 h1
      simp only [Conv.afterDropping, next_dropping h1]
      exact ih h

theorem inv_next {s s' : Conv} {tr : List Obs} {x : Obs} (h : ConvInv s tr) (hs : s.nextDropping x = some s') :
    ConvInv s' (tr ++ [x]) := by
  cases x
  case cancelled =>
    have : s' = { s with phase := .idle } := by
      simp only [Conv.nextDropping] at hs
      split at hs <;> cases hs
      rfl
    subst this
    exact ⟨by simp [isRunning, runStep, phaseRuns], by rw [← h.up]; simp [isUp, upStep], by simp [phaseRuns]⟩
  all_goals exact h.next hs

/-- the conversation before an observation of a well-behaved history -/
theorem conv_split {tr pre post : List Obs} {x : Obs} {s : Conv} (h : (Conv.mk .idle false).afterDropping tr = some s)
    (e : tr = pre ++ x :: post) : ∃ s1 s2, ConvInv s1 pre ∧ s1.nextDropping x = some s2 := by
  have key : ∀ (b a : List Obs) (s s' : Conv), ConvInv s a → s.afterDropping b = some s' → ConvInv s' (a ++ b) := by
    intro b
    induction b with
    | nil => intro a s s' h1 h2; cases h2; simpa using h1
    | cons x b ih =>
      intro a s s' h1 h2
      simp only [Conv.afterDropping] at h2
      split at h2
      · cases h2
      · rename_i s1 hs
        simpa using ih (a ++ [x]) s1 s' (inv_next h1 hs) h2
  subst e
  rw [after_append] at h
  cases h1 : (Conv.mk .idle false).afterDropping pre with
  | none => simp [h1] at h
  | some s1 =>
    simp only [h1, Option.bind_some, Conv.afterDropping] at h
    split at h
    · cases h
    · rename_i s2 hs
      exact ⟨s1, s2, key pre [] _ _ ⟨rfl, rfl, by simp [phaseRuns]⟩ h1, hs⟩

/-- what is written, and when -/
def WritesInPlace (pre : List Obs) (p : Packet) : Prop :=
  (isUp pre = true ∧ isRunning pre = true ∧ clientMaySend p = true) ∨
    (isRunning pre = false ∧ ((∃ c, p = .connect c) ∨ isResent p = true))

theorem writes {tr pre post : List Obs} {p : Packet} {a b : Nat} (h : WellBehavedDropping tr) (e : tr = pre ++ .wrote p a b :: post) :
    WritesInPlace pre p := by
  obtain ⟨s, h⟩ := h
  obtain ⟨⟨ph, up⟩, s2, ⟨h1, h2, h3⟩, hs⟩ := conv_split h e
  unfold WritesInPlace
  rw [h1, h2]
  cases ph
  case idle => cases p <;> simp [Conv.nextDropping, Conv.next] at hs; exact .inr ⟨rfl, .inl ⟨_, rfl⟩⟩
  case resending => refine .inr ⟨rfl, .inr ?_⟩; simp [Conv.nextDropping, Conv.next] at hs; exact hs.1
  case running =>
    refine .inl ⟨h3 rfl, rfl, ?_⟩
    cases p <;> first | rfl | simp [Conv.nextDropping, Conv.next, clientMaySend] at hs
  all_goals simp [Conv.nextDropping, Conv.next] at hs

/-- what is observed of a dropped `run` -/
def Short (ob : List Obs) : Prop := ob = [.cancelled] ∨ ∃ p, ob = [.read p, .cancelled] ∨
  p.isDisconnect = false ∧ ob = [.read p, .delivered p, .cancelled]

theorem not_disconnect {p : Packet} (h : ∀ d, p = .disconnect d → False) : p.isDisconnect = false := by
  cases p <;> first | rfl | exact (h _ rfl).elim

theorem Short.conv {ob : List Obs} (h : Short ob) (up : Bool) : (Conv.mk .running up).afterDropping ob = some ⟨.idle, up⟩ := by
  rcases h with rfl | ⟨p, rfl | ⟨-, rfl⟩⟩
  · rfl
  · cases p <;> rfl
  · cases p <;> rfl

/-- what is observed of a dropped `connect` -/
inductive Dialled : List Obs → Prop
  | early : Dialled [.cancelled]
  | asked (c a b) : Dialled [.wrote (.connect c) a b, .cancelled]
  | told (c a b k) : k.reason = .success → Dialled [.wrote (.connect c) a b, .read (.connAck k), .cancelled]
  | resent (c a b k T ws) : k.reason = .success → (∀ p ∈ ws, Packet.resent p) →
    Dialled ([.wrote (.connect c) a b, .read (.connAck k), .delivered (.connAck k)] ++ wrotes T ws ++ [.cancelled])

theorem Dialled.conv {ob : List Obs} (h : Dialled ob) (up : Bool) : (Conv.mk .idle up).afterDropping ob = some ⟨.idle, up⟩ := by
  cases h with
  | early => rfl
  | asked => rfl
  | told c a b k hk => simp [Conv.afterDropping, Conv.nextDropping, Conv.next, hk]
  | resent c a b k T ws hk hw =>
    rw [List.append_assoc, after_append]
    simp only [Conv.afterDropping, Conv.nextDropping, Conv.next, hk, if_true, Option.bind_some]
    rw [after_append, after_dropping (conv_resending T ws k up hw)]
    rfl

theorem resent_of_step {s s' : Sys} {c c' : ConnAck} {ps} (h : s.step (.connAck c) = some (s', .connected c' ps)) : ∀ p ∈ ps, p.resent := by
  have : c' = c := by
    simp only [Sys.step] at h
    repeat' split at h
    all_goals first
      | (cases h; done)
      | (cases h; rfl)
  subst this
  exact Sys.step_connected_resent h

/-! ## tokio -/

theorem tk_short {s s' : TokioWire} {b : TokioBranch} {d : DropAt} {lost : Nat} {T : Times} {ob : List Obs}
    (h : s.drop b d lost T = some (s', ob)) : Short ob := by
  unfold TokioWire.drop TokioWire.dropRead TokioWire.dropOutgoing TokioWire.dropTimer at h
  simp only [TokioWire.cut] at h
  repeat' split at h
  all_goals first
    | (cases h; done)
    | (cases h
       first
         | exact .inl rfl
         | exact .inr ⟨_, .inl rfl⟩
         | exact .inr ⟨_, .inr ⟨rfl, rfl⟩⟩
         | exact .inr ⟨_, .inr ⟨not_disconnect (by assumption), rfl⟩⟩)

theorem tk_dialled {s s' : Tokio} {i : TokioConnect} {d : ConnectDropAt} {ob : List Obs} (h : s.dropConnect i d = some (s', ob)) :
    Dialled ob ∧ s.run.isSome = false ∧ s'.run = s.run ∧ s'.network = s.network := by
  simp only [Tokio.dropConnect] at h
  split at h
  · rename_i hc
    simp only [Bool.and_eq_true] at hc
    have hr : s.run.isSome = false := by simpa using hc.2
    repeat' split at h
    all_goals first
      | (cases h; done)
      | (cases h
         refine ⟨?_, hr, rfl, rfl⟩
         first
           | exact .told _ _ _ _ (by assumption)
           | exact .asked _ _ _
           | exact .early
           | (rename_i hs
              have hres := resent_of_step hs
              obtain ⟨ws, hsub, e⟩ := Tokio.writePackets_wrotes i.resendOk i.times (List.take _ _) 0
              rw [e]
              exact .resent _ _ _ _ _ _ (by assumption) fun p hp => hres p (List.mem_of_mem_take (hsub.subset hp))))
  · cases h

theorem tokio (o : Options) (t : Nat) (ops : List TokioWireOp) :
    (Conv.mk .idle false).afterDropping ((TokioWire.new o t).runOps ops).2 = some ((TokioWire.new o t).runOps ops).1.net.view.conv := by
  have := history_induct TokioWire.step (fun s tr => s.net.view.sys.Users ∧
    (Conv.mk .idle false).afterDropping tr = some s.net.view.conv) (s := TokioWire.new o t) ⟨.init o, rfl⟩ ?_ ops
  · exact this.2
  rintro s tr op s' ob ⟨hu, h⟩ hs
  cases op with
  | op op =>
    simp only [TokioWire.step] at hs
    split at hs
    · rename_i hn
      cases hs
      have hv := Tokio.step_vstep hn
      refine ⟨ConnectsDrop.VStep.users hv hu, ?_⟩
      rw [after_append, h]
      exact after_dropping (hv.conv hu)
    · cases hs
  | drop b d lost T =>
    have hs : s.drop b d lost T = some (s', ob) := hs
    have hc := (tk_cut hs).1
    refine ⟨ConnectsDrop.Quietly.users (TokioWire.drop_facts hs).sys hu, ?_⟩
    rw [after_append, h]
    have hl : s'.net.view.live = s.net.view.live := tk_live hs
    simp only [View.conv, hc.was, hc.is, hl, if_true, Option.bind_some, Bool.false_eq_true, if_false]
    exact (tk_short hs).conv _
  | dropConnect i d =>
    obtain ⟨i', obs', -, hn', -⟩ := TokioWire.dropConnect_failed hs
    have hu' := ConnectsDrop.VStep.users (Tokio.step_vstep hn') hu
    simp only [TokioWire.step] at hs
    split at hs
    · rename_i hd
      cases hs
      refine ⟨hu', ?_⟩
      obtain ⟨h1, h2, h3, h4⟩ := tk_dialled hd
      rw [after_append, h]
      simp only [View.conv, Tokio.view, h2, h3, h4, Option.bind_some, Bool.false_eq_true, if_false]
      exact h1.conv _
    · cases hs

/-! ## smol -/

theorem sm_short {s s' : SmolWire} {b : SmolBranch} {d : DropAt} {T : Times} {ob : List Obs}
    (h : s.drop b d T = some (s', ob)) : Short ob := by
  unfold SmolWire.drop SmolWire.dropRead SmolWire.dropOutgoing SmolWire.dropTimer at h
  simp only [SmolWire.cut] at h
  repeat' split at h
  all_goals first
    | (cases h; done)
    | (cases h
       first
         | exact .inl rfl
         | exact .inr ⟨_, .inl rfl⟩
         | exact .inr ⟨_, .inr ⟨rfl, rfl⟩⟩
         | exact .inr ⟨_, .inr ⟨not_disconnect (by assumption), rfl⟩⟩)

theorem sm_dialled {s s' : Smol} {i : SmolConnect} {d : ConnectDropAt} {ob : List Obs} (h : s.dropConnect i d = some (s', ob)) :
    Dialled ob ∧ s.running = false ∧ s'.running = s.running ∧ s'.network = s.network := by
  simp only [Smol.dropConnect] at h
  split at h
  · rename_i hc
    simp only [Bool.and_eq_true] at hc
    have hr : s.running = false := by simpa using hc.2
    repeat' split at h
    all_goals first
      | (cases h; done)
      | (cases h
         refine ⟨?_, hr, rfl, rfl⟩
         first
           | exact .told _ _ _ _ (by assumption)
           | exact .resent _ _ _ _ i.times [] (by assumption) (fun p hp => by cases hp)
           | exact .asked _ _ _
           | exact .early)
  · cases h

theorem smol (k : Bool) (o : Options) (t : Nat) (ops : List SmolWireOp) :
    (Conv.mk .idle false).afterDropping ((SmolWire.new k o t).runOps ops).2 =
      some ((SmolWire.new k o t).runOps ops).1.net.view.conv := by
  have := history_induct SmolWire.step (fun s tr => s.net.Good ∧ s.net.view.sys.Users ∧
    (Conv.mk .idle false).afterDropping tr = some s.net.view.conv) (s := SmolWire.new k o t)
    ⟨⟨rfl, by simp [SmolWire.new, Smol.new]⟩, .init o, rfl⟩ ?_ ops
  · exact this.2.2
  rintro s tr op s' ob ⟨hg, hu, h⟩ hs
  cases op with
  | op op =>
    simp only [SmolWire.step] at hs
    split at hs
    · rename_i hn
      cases hs
      obtain ⟨hv, hg⟩ := Smol.step_vstep hg hn
      refine ⟨hg, ConnectsDrop.VStep.users hv hu, ?_⟩
      rw [after_append, h]
      exact after_dropping (hv.conv hu)
    · cases hs
  | drop b d T =>
    have hs : s.drop b d T = some (s', ob) := hs
    have hc := (sm_cut hs).1
    refine ⟨(SmolWire.drop_facts hs).good hg, ConnectsDrop.Quietly.users (SmolWire.drop_facts hs).sys hu, ?_⟩
    rw [after_append, h]
    have hl : s'.net.view.live = s.net.view.live := sm_live hs
    simp only [View.conv, hc.was, hc.is, hl, if_true, Option.bind_some, Bool.false_eq_true, if_false]
    exact (sm_short hs).conv _
  | dropConnect i d =>
    obtain ⟨i', obs', -, hn', -⟩ := SmolWire.dropConnect_failed hs
    obtain ⟨hv', hg'⟩ := Smol.step_vstep hg hn'
    have hu' := ConnectsDrop.VStep.users hv' hu
    simp only [SmolWire.step] at hs
    split at hs
    · rename_i hd
      cases hs
      refine ⟨hg', hu', ?_⟩
      obtain ⟨h1, h2, h3, h4⟩ := sm_dialled hd
      rw [after_append, h]
      simp only [View.conv, Smol.view, h2, h3, h4, Option.bind_some, Bool.false_eq_true, if_false]
      exact h1.conv _
    · cases hs

end DisciplineDrop
end Mqrstt
