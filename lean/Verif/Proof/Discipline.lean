import Verif.Spec.Discipline
import Verif.Proof.NetHelp
/-! # The networks follow the rules of a conversation -/

namespace Mqrstt
open Spec

theorem conv_after_append (s : Conv) (a b : List Obs) :
    s.after (a ++ b) = (s.after a).bind fun s' => s'.after b := by
  induction a generalizing s with
  | nil => rfl
  | cons x a ih =>
    simp only [List.cons_append, Conv.after]
    cases s.next x with
    | none => rfl
    | some s' => exact ih s'

/-- the conversation of a network between two steps -/
def View.conv (v : View) : Conv := ⟨if v.running then .running else .idle, v.live⟩

theorem resent_isResent {p : Packet} (h : p.resent) : isResent p = true := by
  cases p <;> first | exact h | rfl | simp [Packet.resent] at h

theorem fromUser_maySend {p : Packet} (h : p.fromUser) : clientMaySend p = true := by
  cases p <;> first | rfl | simp [Packet.fromUser] at h

theorem answer_maySend {p : Packet} {r : Option Packet} {b : Bool} (h : Sys.Answer p r b) :
    ∀ q ∈ r.toList, clientMaySend q = true ∧ q.isDisconnect = false := by
  cases h <;> simp [clientMaySend, Packet.isDisconnect]

theorem conv_resending (T : Times) (ws : List Packet) (c : ConnAck) (up : Bool) (h : ∀ p ∈ ws, p.resent) :
    (Conv.mk (.resending c) up).after (wrotes T ws) = some ⟨.resending c, up⟩ := by
  induction ws with
  | nil => rfl
  | cons p ws ih =>
    simp only [wrotes, List.map_cons, Conv.after, Conv.next, resent_isResent (h p (by simp)), if_true]
    exact ih fun q hq => h q (by simp [hq])

theorem conv_wrote {up : Bool} {p : Packet} {a b : Nat} (h : clientMaySend p = true) (hd : p.isDisconnect = false) :
    (Conv.mk .running up).next (.wrote p a b) = some ⟨.running, up⟩ := by
  cases p <;> first | rfl | (simp [clientMaySend] at h; done) | simp [Packet.isDisconnect] at hd

theorem conv_wrote' {up : Bool} {p : Packet} {a b : Nat} (h : clientMaySend p = true) :
    ∃ s, (Conv.mk .running up).next (.wrote p a b) = some s ∧ (s.phase = .running ∨ s.phase = .closing) := by
  cases p <;> first | exact ⟨_, rfl, .inl rfl⟩ | exact ⟨_, rfl, .inr rfl⟩ | simp [clientMaySend] at h

theorem conv_read {up : Bool} {p : Packet} (h : p.forSession = true) :
    (Conv.mk .running up).next (.read p) = some ⟨.running, up⟩ := by
  cases p <;> first | rfl | simp [Packet.forSession] at h

theorem conv_shown {up : Bool} {p : Packet} (h : p.forSession = true) (b : Bool) :
    (Conv.mk .running up).after (shownObs p b) = some ⟨.running, up⟩ := by
  cases b <;> simp [shownObs, Conv.after, conv_read h]
  rfl

theorem conv_ended {s : Conv} (h : s.phase = .running ∨ s.phase = .closing) {e : End} (he : e ≠ .error .noNetwork) :
    s.next (.ended e) = some ⟨.idle, false⟩ := by
  obtain ⟨ph, up⟩ := s
  rcases e with st | er | _
  · rcases h with rfl | rfl <;> rfl
  · cases er <;> first | exact absurd rfl he | (rcases h with rfl | rfl <;> rfl)
  · rcases h with rfl | rfl <;> rfl

theorem conv_client {s : Conv} {e : Event} (h : e.ofClient = true) : s.next (.user e) = some s := by
  cases e <;> first | rfl | simp [Event.ofClient] at h

theorem conv_failed {s : Conv} (h : s.phase ≠ .running ∧ s.phase ≠ .closing) (e : ConnErr) :
    s.next (.connectFailed e) = some { s with phase := .idle } := by
  obtain ⟨ph, up⟩ := s
  cases ph <;> simp_all [Conv.next]

theorem VStep.conv {fl v o w} (hu : v.sys.Users) (h : VStep fl v o w) : v.conv.after o = some w.conv := by
  have ended : ∀ {s : Conv} {e : End} {w : View}, w.running = false → w.live = false →
      (s.phase = .running ∨ s.phase = .closing) → e ≠ .error .noNetwork → s.after [.ended e] = some w.conv := by
    intro s e w h1 h2 h3 h4
    simp [Conv.after, conv_ended h3 h4, View.conv, h1, h2]
  cases h
  case client hc hs => simp [Conv.after, conv_client (Sys.step_ofClient hc hs), View.conv]
  case drop hr hs => rw [(Sys.step_drop hs).1]; simp [Conv.after, Conv.next, View.conv, hr]
  case accepted h hp hs =>
    rename_i T p sys reply shown
    have ha := answer_maySend (Sys.step_answer hs)
    rw [conv_after_append]
    simp only [View.conv, h.running, if_true, conv_shown hp, Option.bind_some]
    cases reply with
    | none => rfl
    | some r =>
      have := ha r (by simp)
      simp [wrotes, Conv.after, conv_wrote this.1 this.2]
  case acceptedFail h hp he hs =>
    rw [conv_after_append]
    simp only [View.conv, h.running, if_true, conv_shown hp, Option.bind_some]
    exact ended rfl rfl (.inl rfl) (by simpa using he.1)
  case refusedPacket h hp hs =>
    simp only [View.conv, h.running, if_true, Conv.after, conv_read hp]
    rw [conv_ended (.inl rfl) (by simp)]
    rfl
  case readPanic h hp hs =>
    simp only [View.conv, h.running, if_true, Conv.after, conv_read hp]
    rw [conv_ended (.inl rfl) (by simp)]
    rfl
  case readPing h => simp [View.conv, h.running, Conv.after, Conv.next]
  case readPingFail h _ he =>
    simp only [View.conv, h.running, if_true, Conv.after, Conv.next]
    exact ended (s := ⟨.running, v.live⟩) rfl rfl (.inl rfl) (by simpa using he.1)
  case failed h he =>
    simp only [View.conv, h.running, if_true]
    exact ended rfl rfl (.inl rfl) (by simpa using he.1)
  case outFail h he hs =>
    simp only [View.conv, h.running, if_true]
    exact ended rfl rfl (.inl rfl) (by simpa using he.1)
  case outOk h hs hd =>
    simp [View.conv, h.running, Conv.after, conv_wrote (fromUser_maySend (written_fromUser hu hs (.inl rfl))) hd]
  case outDisc h hs hd =>
    obtain ⟨s, h1, h2⟩ := conv_wrote' (up := v.live) (a := ‹Times›.fire) (b := ‹Times›.first)
      (fromUser_maySend (written_fromUser hu hs (.inl rfl)))
    simp only [View.conv, h.running, if_true, Conv.after, h1]
    exact ended rfl rfl h2 (by simp)
  case outErr h hs =>
    obtain ⟨s, h1, h2⟩ := conv_wrote' (up := v.live) (a := ‹Times›.fire) (b := ‹Times›.first)
      (fromUser_maySend (written_fromUser hu hs (.inr ⟨_, rfl⟩)))
    simp only [View.conv, h.running, if_true, Conv.after, h1]
    exact ended rfl rfl h2 (by simp)
  case outPanic h hq hs =>
    obtain ⟨s, h1, h2⟩ := conv_wrote' (up := v.live) (a := ‹Times›.fire) (b := ‹Times›.first)
      (fromUser_maySend (hu _ (.inr (by rw [hq]; exact List.mem_cons_self))))
    simp only [View.conv, h.running, if_true, Conv.after, h1]
    exact ended rfl rfl h2 (by simp)
  case connectFailed hr ha ht ho =>
    rcases ho with rfl | ⟨_, _, _, rfl⟩ <;> simp [View.conv, hr, Conv.after, Conv.next]
  case refused hr ha ht hc => simp [View.conv, hr, Conv.after, Conv.next, hc]
  case notConnAck hr ha ht hc =>
    rename_i p cn a b
    have : ∀ up, (Conv.mk .asked up).next (.read p) = some ⟨.refused, up⟩ := by
      intro up
      cases p <;> first | rfl | exact absurd rfl (hc _)
    simp [View.conv, hr, Conv.after]
    simp [Conv.next]
  case established hr ha ht hc hs hw hall =>
    simp only [View.conv, hr, List.cons_append, List.nil_append, Conv.after, Conv.next, if_pos hc, Bool.false_eq_true, if_false]
    rw [conv_after_append, conv_resending _ _ _ _ fun p hp => Sys.step_connected_resent hs p (hw.subset hp)]
    simp [Conv.after, Conv.next, View.afterConnAck, hr]
  case establishFail hr ha ht hc hs hw hnone =>
    simp only [View.conv, hr, List.cons_append, List.nil_append, Conv.after, Conv.next, if_pos hc, Bool.false_eq_true, if_false]
    rw [conv_after_append, conv_resending _ _ _ _ fun p hp => Sys.step_connected_resent hs p (hw.subset hp)]
    simp [Conv.after, Conv.next, View.afterConnAck, hr]
  all_goals simp_all [View.conv, Conv.after, Conv.next, View.finish, keepAliveDisconnect, View.afterConnAck, clientMaySend]
  all_goals (have := View.Ready.running ‹_›; have := View.Ready.live ‹_›; simp_all)

theorem VRun.conv {fl o t tr v} (h : VRun fl (View.init o t) tr v) : (Conv.mk .idle false).after tr = some v.conv := by
  induction h with
  | nil => rfl
  | snoc h hs ih => rw [conv_after_append, ih]; exact hs.conv h.users

end Mqrstt

/-! ## the automaton and the connection -/

namespace Mqrstt
open Spec

def phaseRuns : Phase → Bool
  | .running | .closing => true
  | _ => false

structure ConvInv (s : Conv) (tr : List Obs) : Prop where
  runs : isRunning tr = phaseRuns s.phase
  up : isUp tr = s.up
  needs : phaseRuns s.phase = true → s.up = true

theorem ConvInv.next {s s' : Conv} {tr : List Obs} {x : Obs} (h : ConvInv s tr) (hs : s.next x = some s') :
    ConvInv s' (tr ++ [x]) := by
  obtain ⟨ph, up⟩ := s
  obtain ⟨h1, h2, h3⟩ := h
  have run' : isRunning (tr ++ [x]) = runStep (isRunning tr) x := by simp [isRunning]
  have up' : isUp (tr ++ [x]) = upStep (isUp tr) x := by simp [isUp]
  rw [h1] at run'
  rw [h2] at up'
  refine ⟨run'.trans ?_, up'.trans ?_, ?_⟩ <;>
    (simp only [Conv.next] at hs
     split at hs <;> (try split at hs) <;> (try split at hs) <;> simp_all [phaseRuns, runStep, upStep])
  all_goals (try (subst hs; simp_all [phaseRuns]; done))
  all_goals (try (obtain ⟨_, rfl⟩ := hs; simp_all [phaseRuns]; done))
  all_goals (try (subst hs; dsimp only; split <;> rfl))

theorem conv_inv {s : Conv} {tr : List Obs} (h : (Conv.mk .idle false).after tr = some s) : ConvInv s tr := by
  have key : ∀ (b a : List Obs) (s s' : Conv), ConvInv s a → s.after b = some s' → ConvInv s' (a ++ b) := by
    intro b
    induction b with
    | nil => intro a s s' h1 h2; cases h2; simpa using h1
    | cons x b ih =>
      intro a s s' h1 h2
      simp only [Conv.after] at h2
      split at h2
      · simp at h2
      · rename_i s1 hs
        have := ih (a ++ [x]) s1 s' (h1.next hs) h2
        simpa using this
  exact key tr [] _ _ ⟨rfl, rfl, by simp [phaseRuns]⟩ h

/-- the conversation before an observation of a well-behaved history -/
theorem conv_split {tr pre post : List Obs} {x : Obs} {s : Conv} (h : (Conv.mk .idle false).after tr = some s)
    (e : tr = pre ++ x :: post) : ∃ s1 s2, ConvInv s1 pre ∧ s1.next x = some s2 ∧ s2.after post = some s := by
  subst e
  rw [conv_after_append] at h
  cases h1 : (Conv.mk .idle false).after pre with
  | none => simp [h1] at h
  | some s1 =>
    simp only [h1, Option.bind_some, Conv.after] at h
    split at h
    · simp at h
    · rename_i s2 hs
      exact ⟨s1, s2, conv_inv h1, hs, h⟩

end Mqrstt

namespace Mqrstt
open Spec

def PReadAt (v : View) (o1 : List Obs) (x : Obs) (_ : List Obs) : Prop := ∀ p, x = .read p →
  (o1 = [] ∧ v.running = true ∧ v.live = true) ∨ ∃ c a b, o1 = [.wrote (.connect c) a b]

theorem VStep.readAt {fl v o w} (h : VStep fl v o w) : AllPos (PReadAt v) o := by
  cases h
  case accepted h _ _ =>
    rename_i reply shown _ _
    cases shown <;> cases reply <;> simp [shownObs, wrotes, PReadAt, h.running, h.live]
  case acceptedFail h _ _ _ =>
    rename_i shown _ _ _ _
    cases shown <;> simp [shownObs, PReadAt, h.running, h.live]
  case connectFailed ho => rcases ho with rfl | ⟨_, _, _, rfl⟩ <;> simp [PReadAt]
  case established => simp [PReadAt]; exact allPos_wrotes (by simp [PReadAt]) (by simp [PReadAt])
  case establishFail => simp [PReadAt]; exact allPos_wrotes (by simp [PReadAt]) (by simp [PReadAt])
  case readPing h => simp [PReadAt, h.running, h.live]
  case readPingFail h _ _ => simp [PReadAt, h.running, h.live]
  case readDisc h => simp [PReadAt, h.running, h.live]
  case refusedPacket h _ _ => simp [PReadAt, h.running, h.live]
  case readPanic h _ _ => simp [PReadAt, h.running, h.live]
  all_goals simp [PReadAt]

theorem VRun.readAt {fl o t tr v} (h : VRun fl (View.init o t) tr v) {pre post : List Obs} {p : Packet}
    (e : tr = pre ++ .read p :: post) :
    (isUp pre = true ∧ isRunning pre = true) ∨ ∃ c a b, [.wrote (.connect c) a b] <:+ pre := by
  obtain ⟨v1, v2, tr1, o1, o2, tr2, h1, h2, -, rfl, -⟩ := h.split e
  rcases h2.readAt o1 _ o2 rfl p rfl with ⟨rfl, hr, hl⟩ | ⟨c, a, b, rfl⟩
  · rw [List.append_nil, ← h1.up.1, ← h1.up.2]; exact .inl ⟨hl, hr⟩
  · exact .inr ⟨c, a, b, List.suffix_append _ _⟩

end Mqrstt
